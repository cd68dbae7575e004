import Verif.Model.HeapRect
import Verif.Props.Heap
import Verif.Props.Rect

/-!
# Rectangles as objects (C157)

`Rect2D` mutators are proved about rectangle values in `Props/Rect.lean` (C54-C61).  Here: a program that works on
rectangle *objects* which do not share parts behaves as the program on values, whatever the order of the calls and
whichever rectangle each call is made on.
-/

open PyrusGeom PyrusGeom.Spec

namespace PyrusGeom

/-- A method call on a rectangle; the arguments are numbers or objects. -/
inductive RectCall
  | moveCenter (q : Addr) | moveTopLeft (q : Addr) | moveBottomRight (q : Addr)
  | moveLeft (x : ℝ) | moveRight (x : ℝ) | moveTop (y : ℝ) | moveBottom (y : ℝ)
  | setTopLeft (x y : ℝ) | setBottomRight (x y : ℝ)
  | setLeft (x : ℝ) | setRight (x : ℝ) | setTop (y : ℝ) | setBottom (y : ℝ)
  | setLength (l : ℝ) | setWidth (w : ℝ) | setSize (l w : ℝ) | setSizeObj (z : Addr)
  | assign4 (l t len wid : ℝ) | assign3 (q : Addr) (len wid : ℝ) | assignCorners (q q' : Addr) | assignRect (o : Addr)
  | intersected (o : Addr) | united (o : Addr)

/-- The call on the objects (the model of the code). -/
noncomputable def RectCall.run (h : Heap ℝ) (r : Addr) : RectCall → Except PyErr (Heap ℝ)
  | .moveCenter q => h.rectMoveCenter r q
  | .moveTopLeft q => h.rectMoveTopLeft r q
  | .moveBottomRight q => h.rectMoveBottomRight r q
  | .moveLeft x => h.rectMoveLeft r x
  | .moveRight x => h.rectMoveRight r x
  | .moveTop y => h.rectMoveTop r y
  | .moveBottom y => h.rectMoveBottom r y
  | .setTopLeft x y => h.rectSetTopLeft r x y
  | .setBottomRight x y => h.rectSetBottomRight r x y
  | .setLeft x => h.rectSetLeft r x
  | .setRight x => h.rectSetRight r x
  | .setTop y => h.rectSetTop r y
  | .setBottom y => h.rectSetBottom r y
  | .setLength l => h.rectSetLength r l
  | .setWidth w => h.rectSetWidth r w
  | .setSize l w => h.rectSetSize2 r l w
  | .setSizeObj z => h.rectSetSizeObj r z
  | .assign4 l t len wid => h.rectAssign4 r l t len wid
  | .assign3 q len wid => h.rectAssign3 r q len wid
  | .assignCorners q q' => h.rectAssignCorners r q q'
  | .assignRect o => h.rectAssignRect r o
  | .intersected o => (h.rectIntersected r o).map Prod.snd
  | .united o => (h.rectUnited r o).map Prod.snd

/-- What the client knows: its own points and sizes, and the values of its rectangles. -/
structure Known where
  vec : Addr → Option (Vec ℝ)
  size : Addr → Option (Size ℝ)
  rect : Addr → Option (Rect ℝ)

/-- The value of an intersection or union in which the rectangle is its own argument: emptying the receiver empties the
argument as well. -/
noncomputable def selfIntersected (v : Rect ℝ) : Rect ℝ := if v.isValid then v.intersected v else ⟨⟨0, 0, v.topLeft.valid⟩, ⟨0, 0⟩⟩

/-- The same for the union, which always empties the size of the receiver first. -/
noncomputable def selfUnited (v : Rect ℝ) : Rect ℝ :=
  if v.isValid then ⟨v.topLeft, ⟨0, 0⟩⟩ else ⟨⟨0, 0, v.topLeft.valid⟩, ⟨0, 0⟩⟩

/-- The call on values: the new value of the rectangle, in terms of the functions of C54-C61. -/
noncomputable def RectCall.value (E : Known) (r : Addr) (v : Rect ℝ) : RectCall → Option (Rect ℝ)
  | .moveCenter q => (E.vec q).map fun p => v.moveCenter p
  | .moveTopLeft q => (E.vec q).map fun p => v.moveTopLeft p
  | .moveBottomRight q => (E.vec q).map fun p => v.moveBottomRight p
  | .moveLeft x => some (v.moveLeft x)
  | .moveRight x => some (v.moveRight x)
  | .moveTop y => some (v.moveTop y)
  | .moveBottom y => some (v.moveBottom y)
  | .setTopLeft x y => some (v.setTopLeft x y)
  | .setBottomRight x y => some (v.setBottomRight x y)
  | .setLeft x => some (v.setLeft x)
  | .setRight x => some (v.setRight x)
  | .setTop y => some (v.setTop y)
  | .setBottom y => some (v.setBottom y)
  | .setLength l => some (v.setLength l)
  | .setWidth w => some (v.setWidth w)
  | .setSize l w => some (v.setSize l w)
  | .setSizeObj z => (E.size z).map fun s => v.setSize s.length s.width
  | .assign4 l t len wid => some (v.assign4 l t len wid)
  | .assign3 q len wid => (E.vec q).map fun p => v.assign3 p len wid
  | .assignCorners q q' => (E.vec q).bind fun p => (E.vec q').map fun p' => Rect.ofCorners p p'
  | .assignRect o => (E.rect o).map fun w => Rect.ofRect w
  | .intersected o => if o = r then some (selfIntersected v) else (E.rect o).map fun w => v.intersected w
  | .united o => if o = r then some (selfUnited v) else (E.rect o).map fun w => v.united w

/-- The heap holds what the client knows, and the client's rectangles share nothing: no two of them have the same corner
or size object, and the client holds no part of a rectangle. -/
structure Separate (h : Heap ℝ) (E : Known) : Prop where
  vec : ∀ q v, E.vec q = some v → h[q]? = some (.vec v)
  size : ∀ z s, E.size z = some s → h[z]? = some (.size s)
  rect : ∀ r v, E.rect r = some v → ∃ p s, h[r]? = some (.rect p s) ∧ h[p]? = some (.vec v.topLeft) ∧
    h[s]? = some (.size v.size)
  apart : ∀ r r' p s p' s', E.rect r ≠ none → E.rect r' ≠ none → r ≠ r' → h[r]? = some (.rect p s) →
    h[r']? = some (.rect p' s') → p ≠ p' ∧ s ≠ s'
  own : ∀ r p s, E.rect r ≠ none → h[r]? = some (.rect p s) → E.vec p = none ∧ E.size s = none

/-- In `h'` the rectangle `r` (with parts `p` and `s` in `h`) has the value `w`; each of its parts is the old one or a new
object, and nothing else has changed. -/
def Rewritten (h h' : Heap ℝ) (r p s : ℕ) (w : Rect ℝ) : Prop :=
  ∃ p' s' : ℕ, h'[r]? = some (.rect p' s') ∧ h'[p']? = some (.vec w.topLeft) ∧ h'[s']? = some (.size w.size) ∧
    (p' = p ∨ h.length ≤ p') ∧ (s' = s ∨ h.length ≤ s') ∧
    ∀ x, x < h.length → x ≠ r → x ≠ p → x ≠ s → h'[x]? = h[x]?

theorem Separate.upd {h h' : Heap ℝ} {E : Known} (hs : Separate h E) {r p s : ℕ} {v w : Rect ℝ}
    (hv : E.rect r = some v) (hr : h[r]? = some (.rect p s)) (hw : Rewritten h h' r p s w) :
    Separate h' { E with rect := Function.update E.rect r (some w) } := by
  obtain ⟨p', s', hr', hp', hs', hpp, hss, fr⟩ := hw
  have lt : ∀ {x : ℕ} {o : Obj ℝ}, h[x]? = some o → x < h.length := fun ho => (List.getElem?_eq_some_iff.mp ho).1
  have hne : E.rect r ≠ none := by rw [hv]; simp
  obtain ⟨p0, s0, h1, h2, h3⟩ := hs.rect r v hv
  rw [hr] at h1; obtain ⟨rfl, rfl⟩ : p = p0 ∧ s = s0 := by simpa using h1
  have keepv : ∀ q w, E.vec q = some w → h'[q]? = some (.vec w) := by
    intro q w hq
    have e := hs.vec q w hq
    rw [fr q (lt e), e]
    · rintro rfl; rw [e] at hr; simp at hr
    · rintro rfl; have := (hs.own r _ _ hne hr).1; rw [hq] at this; simp at this
    · rintro rfl; rw [e] at h3; simp at h3
  have keeps : ∀ z w, E.size z = some w → h'[z]? = some (.size w) := by
    intro z w hz
    have e := hs.size z w hz
    rw [fr z (lt e), e]
    · rintro rfl; rw [e] at hr; simp at hr
    · rintro rfl; rw [e] at h2; simp at h2
    · rintro rfl; have := (hs.own r _ _ hne hr).2; rw [hz] at this; simp at this
  have keepr : ∀ r2, r2 ≠ r → E.rect r2 ≠ none → h'[r2]? = h[r2]? := by
    intro r2 h2r hn
    obtain ⟨w, hw⟩ := Option.ne_none_iff_exists'.mp hn
    obtain ⟨p2, s2, e1, e2, e3⟩ := hs.rect r2 w hw
    refine fr r2 (lt e1) h2r ?_ ?_
    · rintro rfl; rw [e1] at h2; simp at h2
    · rintro rfl; rw [e1] at h3; simp at h3
  refine ⟨keepv, keeps, ?_, ?_, ?_⟩
  · intro r2 w hw
    by_cases hrr : r2 = r
    · subst hrr
      simp only [Function.update_self, Option.some.injEq] at hw
      subst hw
      exact ⟨p', s', hr', hp', hs'⟩
    · have hw' : E.rect r2 = some w := by simpa [Function.update_of_ne hrr] using hw
      obtain ⟨p2, s2, e1, e2, e3⟩ := hs.rect r2 w hw'
      have hn2 : E.rect r2 ≠ none := by rw [hw']; simp
      have ap := hs.apart r2 r p2 s2 p s hn2 hne hrr e1 hr
      refine ⟨p2, s2, by rw [keepr r2 hrr hn2, e1], ?_, ?_⟩
      · rw [fr p2 (lt e2) ?_ ap.1 ?_, e2]
        · rintro rfl; rw [e2] at hr; simp at hr
        · rintro rfl; rw [e2] at h3; simp at h3
      · rw [fr s2 (lt e3) ?_ ?_ ap.2, e3]
        · rintro rfl; rw [e3] at hr; simp at hr
        · rintro rfl; rw [e3] at h2; simp at h2
  · have aux : ∀ r2 p2 s2, r2 ≠ r → E.rect r2 ≠ none → h'[r2]? = some (.rect p2 s2) → p' ≠ p2 ∧ s' ≠ s2 := by
      intro r2 p2 s2 h2r hn e
      rw [keepr r2 h2r hn] at e
      have ap := hs.apart r r2 p s p2 s2 hne hn (Ne.symm h2r) hr e
      obtain ⟨w, hw⟩ := Option.ne_none_iff_exists'.mp hn
      obtain ⟨p3, s3, e1, e2, e3⟩ := hs.rect r2 w hw
      rw [e] at e1; obtain ⟨rfl, rfl⟩ : p2 = p3 ∧ s2 = s3 := by simpa using e1
      constructor
      · rcases hpp with rfl | hl
        · exact ap.1
        · have := lt e2; omega
      · rcases hss with rfl | hl
        · exact ap.2
        · have := lt e3; omega
    intro r1 r2 p1 s1 p2 s2 n1 n2 hne12 e1 e2
    by_cases hr1 : r1 = r
    · subst hr1
      rw [hr'] at e1; obtain ⟨rfl, rfl⟩ : p' = p1 ∧ s' = s1 := by simpa using e1
      have n2' : E.rect r2 ≠ none := by simpa [Function.update_of_ne (Ne.symm hne12)] using n2
      exact aux r2 p2 s2 (Ne.symm hne12) n2' e2
    · have n1' : E.rect r1 ≠ none := by simpa [Function.update_of_ne hr1] using n1
      by_cases hr2 : r2 = r
      · subst hr2
        rw [hr'] at e2; obtain ⟨rfl, rfl⟩ : p' = p2 ∧ s' = s2 := by simpa using e2
        have := aux r1 p1 s1 hne12 n1' e1
        exact ⟨Ne.symm this.1, Ne.symm this.2⟩
      · have n2' : E.rect r2 ≠ none := by simpa [Function.update_of_ne hr2] using n2
        rw [keepr r1 hr1 n1'] at e1
        rw [keepr r2 hr2 n2'] at e2
        exact hs.apart r1 r2 p1 s1 p2 s2 n1' n2' hne12 e1 e2
  · intro r2 p2 s2 hn e
    by_cases hrr : r2 = r
    · subst hrr
      rw [hr'] at e; obtain ⟨rfl, rfl⟩ : p' = p2 ∧ s' = s2 := by simpa using e
      constructor
      · rcases hpp with rfl | hl
        · exact (hs.own _ _ _ hne hr).1
        · by_contra hc
          obtain ⟨w, hw⟩ := Option.ne_none_iff_exists'.mp hc
          have := lt (hs.vec _ _ hw); omega
      · rcases hss with rfl | hl
        · exact (hs.own _ _ _ hne hr).2
        · by_contra hc
          obtain ⟨w, hw⟩ := Option.ne_none_iff_exists'.mp hc
          have := lt (hs.size _ _ hw); omega
    · have hn' : E.rect r2 ≠ none := by simpa [Function.update_of_ne hrr] using hn
      rw [keepr r2 hrr hn'] at e
      exact hs.own r2 p2 s2 hn' e

theorem Heap.rectVal_ok {h : Heap ℝ} {r p s : ℕ} {a : Vec ℝ} {b : Size ℝ} (hr : h[r]? = some (.rect p s))
    (hp : h[p]? = some (.vec a)) (hs : h[s]? = some (.size b)) : h.rectVal r = .ok ⟨a, b⟩ := by
  simp [Heap.rectVal, Heap.rect_ok.mpr hr, Heap.vec_ok.mpr hp, Heap.size_ok.mpr hs, bind, Except.bind]

/-- Both parts are written. -/
theorem Rewritten.set_parts {h : Heap ℝ} {r p s : ℕ} {v : Rect ℝ} (hr : h[r]? = some (.rect p s))
    (h2 : h[p]? = some (.vec v.topLeft)) (h3 : h[s]? = some (.size v.size)) (a : Vec ℝ) (b : Size ℝ) :
    Rewritten h ((h.set p (.vec a)).set s (.size b)) r p s ⟨a, b⟩ := by
  have lt : ∀ {x : ℕ} {o : Obj ℝ}, h[x]? = some o → x < h.length := fun ho => (List.getElem?_eq_some_iff.mp ho).1
  have n1 : p ≠ s := by rintro rfl; rw [h2] at h3; simp at h3
  have n2 : r ≠ p := by rintro rfl; rw [h2] at hr; simp at hr
  have n3 : r ≠ s := by rintro rfl; rw [h3] at hr; simp at hr
  refine ⟨p, s, ?_, ?_, ?_, Or.inl rfl, Or.inl rfl, ?_⟩
  · rw [List.getElem?_set_ne n3.symm, List.getElem?_set_ne n2.symm, hr]
  · rw [List.getElem?_set_ne n1.symm]; simp [lt h2]
  · simp [lt h3]
  · intro x _ _ hxp hxs
    rw [List.getElem?_set_ne (Ne.symm hxs), List.getElem?_set_ne (Ne.symm hxp)]

/-- Only the corner object is written. -/
theorem Rewritten.set_corner {h : Heap ℝ} {r p s : ℕ} {v : Rect ℝ} (hr : h[r]? = some (.rect p s))
    (h2 : h[p]? = some (.vec v.topLeft)) (h3 : h[s]? = some (.size v.size)) (a : Vec ℝ) :
    Rewritten h (h.set p (.vec a)) r p s ⟨a, v.size⟩ := by
  have lt : ∀ {x : ℕ} {o : Obj ℝ}, h[x]? = some o → x < h.length := fun ho => (List.getElem?_eq_some_iff.mp ho).1
  have n1 : p ≠ s := by rintro rfl; rw [h2] at h3; simp at h3
  have n2 : r ≠ p := by rintro rfl; rw [h2] at hr; simp at hr
  refine ⟨p, s, ?_, ?_, ?_, Or.inl rfl, Or.inl rfl, ?_⟩
  · rw [List.getElem?_set_ne n2.symm, hr]
  · simp [lt h2]
  · rw [List.getElem?_set_ne n1, h3]
  · intro x _ _ hxp hxs
    rw [List.getElem?_set_ne (Ne.symm hxp)]

/-- Only the size object is written. -/
theorem Rewritten.set_size {h : Heap ℝ} {r p s : ℕ} {v : Rect ℝ} (hr : h[r]? = some (.rect p s))
    (h2 : h[p]? = some (.vec v.topLeft)) (h3 : h[s]? = some (.size v.size)) (b : Size ℝ) :
    Rewritten h (h.set s (.size b)) r p s ⟨v.topLeft, b⟩ := by
  have lt : ∀ {x : ℕ} {o : Obj ℝ}, h[x]? = some o → x < h.length := fun ho => (List.getElem?_eq_some_iff.mp ho).1
  have n1 : p ≠ s := by rintro rfl; rw [h2] at h3; simp at h3
  have n3 : r ≠ s := by rintro rfl; rw [h3] at hr; simp at hr
  refine ⟨p, s, ?_, ?_, ?_, Or.inl rfl, Or.inl rfl, ?_⟩
  · rw [List.getElem?_set_ne n3.symm, hr]
  · rw [List.getElem?_set_ne n1.symm, h2]
  · simp [lt h3]
  · intro x _ _ hxp hxs
    rw [List.getElem?_set_ne (Ne.symm hxs)]

/-- The corner is a new object. -/
theorem Rewritten.new_corner {h : Heap ℝ} {r p s : ℕ} {v : Rect ℝ} (hr : h[r]? = some (.rect p s))
    (h2 : h[p]? = some (.vec v.topLeft)) (h3 : h[s]? = some (.size v.size)) (a : Vec ℝ) :
    Rewritten h ((h ++ [Obj.vec a]).set r (.rect h.length s)) r p s ⟨a, v.size⟩ := by
  have lt : ∀ {x : ℕ} {o : Obj ℝ}, h[x]? = some o → x < h.length := fun ho => (List.getElem?_eq_some_iff.mp ho).1
  have n3 : r ≠ s := by rintro rfl; rw [h3] at hr; simp at hr
  have lr := lt hr
  refine ⟨h.length, s, ?_, ?_, ?_, Or.inr le_rfl, Or.inl rfl, ?_⟩
  · exact List.getElem?_set_self (by rw [List.length_append]; omega)
  · rw [List.getElem?_set_ne (by omega)]; simp
  · rw [List.getElem?_set_ne n3, List.getElem?_append_left (lt h3), h3]
  · intro x hx hxr _ _
    rw [List.getElem?_set_ne (Ne.symm hxr), List.getElem?_append_left hx]

/-- The size is a new object. -/
theorem Rewritten.new_size {h : Heap ℝ} {r p s : ℕ} {v : Rect ℝ} (hr : h[r]? = some (.rect p s))
    (h2 : h[p]? = some (.vec v.topLeft)) (h3 : h[s]? = some (.size v.size)) (b : Size ℝ) :
    Rewritten h ((h ++ [Obj.size b]).set r (.rect p h.length)) r p s ⟨v.topLeft, b⟩ := by
  have lt : ∀ {x : ℕ} {o : Obj ℝ}, h[x]? = some o → x < h.length := fun ho => (List.getElem?_eq_some_iff.mp ho).1
  have n2 : r ≠ p := by rintro rfl; rw [h2] at hr; simp at hr
  have lr := lt hr
  refine ⟨p, h.length, ?_, ?_, ?_, Or.inl rfl, Or.inr le_rfl, ?_⟩
  · exact List.getElem?_set_self (by rw [List.length_append]; omega)
  · rw [List.getElem?_set_ne n2, List.getElem?_append_left (lt h2), h2]
  · rw [List.getElem?_set_ne (by omega)]; simp
  · intro x hx hxr _ _
    rw [List.getElem?_set_ne (Ne.symm hxr), List.getElem?_append_left hx]

/-- Both parts are new objects. -/
theorem Rewritten.new_parts {h : Heap ℝ} {r p s : ℕ} {v : Rect ℝ} (hr : h[r]? = some (.rect p s))
    (h2 : h[p]? = some (.vec v.topLeft)) (h3 : h[s]? = some (.size v.size)) (a : Vec ℝ) (b : Size ℝ) :
    Rewritten h ((h ++ [Obj.vec a] ++ [Obj.size b]).set r (.rect h.length (h.length + 1))) r p s ⟨a, b⟩ := by
  have lt : ∀ {x : ℕ} {o : Obj ℝ}, h[x]? = some o → x < h.length := fun ho => (List.getElem?_eq_some_iff.mp ho).1
  have lr := lt hr
  refine ⟨h.length, h.length + 1, ?_, ?_, ?_, Or.inr le_rfl, Or.inr (by omega), ?_⟩
  · exact List.getElem?_set_self (by rw [List.length_append, List.length_append]; omega)
  · rw [List.getElem?_set_ne (by omega)]; simp
  · rw [List.getElem?_set_ne (by omega)]; simp
  · intro x hx hxr _ _
    rw [List.getElem?_set_ne (Ne.symm hxr)]
    simp [List.getElem?_append, hx]

/-- The corner is a new object and the size object is written. -/
theorem Rewritten.new_corner_set_size {h : Heap ℝ} {r p s : ℕ} {v : Rect ℝ} (hr : h[r]? = some (.rect p s))
    (h2 : h[p]? = some (.vec v.topLeft)) (h3 : h[s]? = some (.size v.size)) (a : Vec ℝ) (b : Size ℝ) :
    Rewritten h (((h ++ [Obj.vec a]).set r (.rect h.length s)).set s (.size b)) r p s ⟨a, b⟩ := by
  have lt : ∀ {x : ℕ} {o : Obj ℝ}, h[x]? = some o → x < h.length := fun ho => (List.getElem?_eq_some_iff.mp ho).1
  have n3 : r ≠ s := by rintro rfl; rw [h3] at hr; simp at hr
  have lr := lt hr
  have ls := lt h3
  refine ⟨h.length, s, ?_, ?_, ?_, Or.inr le_rfl, Or.inl rfl, ?_⟩
  · rw [List.getElem?_set_ne n3.symm]; exact List.getElem?_set_self (by rw [List.length_append]; omega)
  · rw [List.getElem?_set_ne (by omega), List.getElem?_set_ne (by omega)]; simp
  · exact List.getElem?_set_self (by rw [List.length_set, List.length_append]; omega)
  · intro x hx hxr _ hxs
    rw [List.getElem?_set_ne (Ne.symm hxs), List.getElem?_set_ne (Ne.symm hxr), List.getElem?_append_left hx]

theorem set_four {h : Heap ℝ} {p s : ℕ} (n : p ≠ s) (a b c d : Obj ℝ) :
    (((h.set p a).set s b).set p c).set s d = (h.set p c).set s d := by
  rw [List.set_comm b c n.symm, List.set_set, List.set_set]

theorem Rect.intersected_eq (v w : Rect ℝ) : v.intersected w =
    (let z : Rect ℝ := if !w.isValid then ⟨v.topLeft.assign (num 0) (num 0), Size.ofLW (num 0) (num 0)⟩ else v
    ⟨⟨pyMax z.left w.left, pyMax z.top w.top, v.topLeft.valid⟩,
      Size.ofLW (pyMin z.right w.right - pyMax z.left w.left) (pyMin z.bottom w.bottom - pyMax z.top w.top)⟩) := by
  unfold Rect.intersected
  simp only
  split_ifs <;> rfl

theorem Rect.united_eq (v w : Rect ℝ) : v.united w =
    (let z : Rect ℝ := ⟨if !w.isValid then v.topLeft.assign (num 0) (num 0) else v.topLeft, Size.ofLW (num 0) (num 0)⟩
    ⟨⟨pyMax z.left w.left, pyMax z.top w.top, v.topLeft.valid⟩,
      Size.ofLW (pyMin z.right w.right - pyMax z.left w.left) (pyMin z.bottom w.bottom - pyMax z.top w.top)⟩) := by
  unfold Rect.united
  simp only
  split_ifs <;> rfl

/-- One call: the rectangle it is made on gets the value of the call on values; its parts are the old ones or new objects,
and nothing else changes. -/
theorem RectCall.step {h : Heap ℝ} {E : Known} (hs : Separate h E) {r p s : ℕ} {v w : Rect ℝ} (hv : E.rect r = some v)
    (hr : h[r]? = some (.rect p s)) (c : RectCall) (hw : c.value E r v = some w) :
    ∃ h', c.run h r = .ok h' ∧ Rewritten h h' r p s w := by
  have lt : ∀ {x : ℕ} {o : Obj ℝ}, h[x]? = some o → x < h.length := fun ho => (List.getElem?_eq_some_iff.mp ho).1
  obtain ⟨p0, s0, h1, hp, hz⟩ := hs.rect r v hv
  rw [hr] at h1; obtain ⟨rfl, rfl⟩ : p = p0 ∧ s = s0 := by simpa using h1
  have n1 : p ≠ s := by rintro rfl; rw [hp] at hz; simp at hz
  have n2 : r ≠ p := by rintro rfl; rw [hp] at hr; simp at hr
  have n3 : r ≠ s := by rintro rfl; rw [hz] at hr; simp at hr
  have er := Heap.rect_ok.mpr hr
  have ep := Heap.vec_ok.mpr hp
  have es := Heap.size_ok.mpr hz
  have ev := Heap.rectVal_ok hr hp hz
  have es' : ∀ a : Vec ℝ, Heap.size (List.set h p (Obj.vec a)) s = .ok v.size := fun a =>
    Heap.size_ok.mpr (by rw [List.getElem?_set_ne n1, hz])
  have parts0 : ∀ (a : Vec ℝ) (b : Size ℝ), Heap.rectVal (List.set (List.set h p (Obj.vec a)) s (Obj.size b)) r =
      .ok ⟨a, b⟩ ∧ Heap.vec (List.set (List.set h p (Obj.vec a)) s (Obj.size b)) p = .ok a := by
    intro a b
    have f1 : (List.set (List.set h p (Obj.vec a)) s (Obj.size b))[p]? = some (Obj.vec a) := by
      rw [List.getElem?_set_ne n1.symm]; exact List.getElem?_set_self (lt hp)
    refine ⟨Heap.rectVal_ok (p := p) (s := s) ?_ f1 ?_, Heap.vec_ok.mpr f1⟩
    · rw [List.getElem?_set_ne n3.symm, List.getElem?_set_ne n2.symm, hr]
    · exact List.getElem?_set_self (by rw [List.length_set]; exact lt hz)
  have others : ∀ (o : ℕ) (b' : Rect ℝ), o ≠ r → E.rect o = some b' → ∀ (a : Vec ℝ) (b : Size ℝ),
      Heap.rectVal (List.set (List.set h p (Obj.vec a)) s (Obj.size b)) o = .ok b' := by
    intro o b' ho hb a b
    have := hs.upd hv hr (Rewritten.set_parts hr hp hz a b)
    obtain ⟨p2, s2, f1, f2, f3⟩ := this.rect o b' (by simpa [Function.update_of_ne ho] using hb)
    exact Heap.rectVal_ok f1 f2 f3
  have size3 : ∀ (a : Vec ℝ) (b : Size ℝ) (c : Vec ℝ),
      Heap.size (List.set (List.set (List.set h p (Obj.vec a)) s (Obj.size b)) p (Obj.vec c)) s = .ok b := by
    intro a b c
    refine Heap.size_ok.mpr ?_
    rw [List.getElem?_set_ne n1]
    exact List.getElem?_set_self (by rw [List.length_set]; exact lt hz)
  have hset : ∀ b : Obj ℝ, List.set h s b = List.set (List.set h p (Obj.vec v.topLeft)) s b := by
    intro b
    congr 1
    refine (List.ext_getElem? fun i => ?_).symm
    by_cases hi : i = p
    · subst hi; rw [hp]; exact List.getElem?_set_self (lt hp)
    · rw [List.getElem?_set_ne (Ne.symm hi)]
  cases c
  case moveCenter q =>
    simp only [RectCall.value, Option.map_eq_some_iff] at hw
    obtain ⟨a, ha, rfl⟩ := hw
    have eq := Heap.vec_ok.mpr (hs.vec q a ha)
    refine ⟨_, ?_, Rewritten.set_corner hr hp hz _⟩
    simp only [RectCall.run, Heap.rectMoveCenter, er, es, eq, ep, Heap.vecAssign, bind, Except.bind, Heap.write]
  case moveTopLeft q =>
    simp only [RectCall.value, Option.map_eq_some_iff] at hw
    obtain ⟨a, ha, rfl⟩ := hw
    have eq := Heap.vec_ok.mpr (hs.vec q a ha)
    refine ⟨_, ?_, Rewritten.new_corner hr hp hz _⟩
    simp only [RectCall.run, Heap.rectMoveTopLeft, er, es, eq, ep, Heap.vecAssign, Heap.newVecCopy, Heap.alloc, bind, Except.bind, Heap.write]
  case moveBottomRight q =>
    simp only [RectCall.value, Option.map_eq_some_iff] at hw
    obtain ⟨a, ha, rfl⟩ := hw
    have eq := Heap.vec_ok.mpr (hs.vec q a ha)
    refine ⟨_, ?_, Rewritten.set_corner hr hp hz _⟩
    simp only [RectCall.run, Heap.rectMoveBottomRight, er, es, eq, ep, Heap.vecAssign, Heap.newVecCopy, Heap.alloc, bind, Except.bind, Heap.write]
  case moveLeft x =>
    obtain rfl : _ = w := Option.some.inj hw
    refine ⟨_, ?_, Rewritten.set_corner hr hp hz _⟩
    simp only [RectCall.run, Heap.rectMoveLeft, er, es, ev, ep, es', Heap.vecAssign, Heap.sizeAssign, Heap.vecSetX, Heap.vecSetY,
      Heap.sizeSetLength, Heap.sizeSetWidth, bind, Except.bind, Heap.write]
    try rfl
  case moveRight x =>
    obtain rfl : _ = w := Option.some.inj hw
    refine ⟨_, ?_, Rewritten.set_corner hr hp hz _⟩
    simp only [RectCall.run, Heap.rectMoveRight, er, es, ev, ep, es', Heap.vecAssign, Heap.sizeAssign, Heap.vecSetX, Heap.vecSetY,
      Heap.sizeSetLength, Heap.sizeSetWidth, bind, Except.bind, Heap.write]
    try rfl
  case moveTop y =>
    obtain rfl : _ = w := Option.some.inj hw
    refine ⟨_, ?_, Rewritten.set_corner hr hp hz _⟩
    simp only [RectCall.run, Heap.rectMoveTop, er, es, ev, ep, es', Heap.vecAssign, Heap.sizeAssign, Heap.vecSetX, Heap.vecSetY,
      Heap.sizeSetLength, Heap.sizeSetWidth, bind, Except.bind, Heap.write]
    try rfl
  case moveBottom y =>
    obtain rfl : _ = w := Option.some.inj hw
    refine ⟨_, ?_, Rewritten.set_corner hr hp hz _⟩
    simp only [RectCall.run, Heap.rectMoveBottom, er, es, ev, ep, es', Heap.vecAssign, Heap.sizeAssign, Heap.vecSetX, Heap.vecSetY,
      Heap.sizeSetLength, Heap.sizeSetWidth, bind, Except.bind, Heap.write]
    try rfl
  case setTopLeft x y =>
    obtain rfl : _ = w := Option.some.inj hw
    refine ⟨_, ?_, Rewritten.set_parts hr hp hz _ _⟩
    simp only [RectCall.run, Heap.rectSetTopLeft, Heap.rectAssign4, er, es, ev, ep, es', Heap.vecAssign, Heap.sizeAssign, Heap.vecSetX, Heap.vecSetY,
      Heap.sizeSetLength, Heap.sizeSetWidth, bind, Except.bind, Heap.write]
    try rfl
  case setBottomRight x y =>
    obtain rfl : _ = w := Option.some.inj hw
    refine ⟨_, ?_, Rewritten.set_parts hr hp hz _ _⟩
    simp only [RectCall.run, Heap.rectSetBottomRight, Heap.rectAssign4, er, es, ev, ep, es', Heap.vecAssign, Heap.sizeAssign, Heap.vecSetX, Heap.vecSetY,
      Heap.sizeSetLength, Heap.sizeSetWidth, bind, Except.bind, Heap.write]
    try rfl
  case setLeft x =>
    obtain rfl : _ = w := Option.some.inj hw
    refine ⟨_, ?_, Rewritten.set_parts hr hp hz _ _⟩
    simp only [RectCall.run, Heap.rectSetLeft, er, es, ev, ep, es', Heap.vecAssign, Heap.sizeAssign, Heap.vecSetX, Heap.vecSetY,
      Heap.sizeSetLength, Heap.sizeSetWidth, bind, Except.bind, Heap.write]
    try rfl
  case setRight x =>
    obtain rfl : _ = w := Option.some.inj hw
    refine ⟨_, ?_, Rewritten.set_parts hr hp hz _ _⟩
    simp only [RectCall.run, Heap.rectSetRight, er, es, ev, ep, es', Heap.vecAssign, Heap.sizeAssign, Heap.vecSetX, Heap.vecSetY,
      Heap.sizeSetLength, Heap.sizeSetWidth, bind, Except.bind, Heap.write]
    try rfl
  case setTop y =>
    obtain rfl : _ = w := Option.some.inj hw
    refine ⟨_, ?_, Rewritten.set_parts hr hp hz _ _⟩
    simp only [RectCall.run, Heap.rectSetTop, er, es, ev, ep, es', Heap.vecAssign, Heap.sizeAssign, Heap.vecSetX, Heap.vecSetY,
      Heap.sizeSetLength, Heap.sizeSetWidth, bind, Except.bind, Heap.write]
    try rfl
  case setBottom y =>
    obtain rfl : _ = w := Option.some.inj hw
    refine ⟨_, ?_, Rewritten.set_parts hr hp hz _ _⟩
    simp only [RectCall.run, Heap.rectSetBottom, er, es, ev, ep, es', Heap.vecAssign, Heap.sizeAssign, Heap.vecSetX, Heap.vecSetY,
      Heap.sizeSetLength, Heap.sizeSetWidth, bind, Except.bind, Heap.write]
    try rfl
  case setLength l =>
    obtain rfl : _ = w := Option.some.inj hw
    refine ⟨_, ?_, Rewritten.set_size hr hp hz _⟩
    simp only [RectCall.run, Heap.rectSetLength, er, es, ev, ep, es', Heap.vecAssign, Heap.sizeAssign, Heap.vecSetX, Heap.vecSetY,
      Heap.sizeSetLength, Heap.sizeSetWidth, bind, Except.bind, Heap.write]
    try rfl
  case setWidth wd =>
    obtain rfl : _ = w := Option.some.inj hw
    refine ⟨_, ?_, Rewritten.set_size hr hp hz _⟩
    simp only [RectCall.run, Heap.rectSetWidth, er, es, ev, ep, es', Heap.vecAssign, Heap.sizeAssign, Heap.vecSetX, Heap.vecSetY,
      Heap.sizeSetLength, Heap.sizeSetWidth, bind, Except.bind, Heap.write]
    try rfl
  case setSize l wd =>
    obtain rfl : _ = w := Option.some.inj hw
    refine ⟨_, ?_, Rewritten.set_size hr hp hz _⟩
    simp only [RectCall.run, Heap.rectSetSize2, er, es, ev, ep, es', Heap.vecAssign, Heap.sizeAssign, Heap.vecSetX, Heap.vecSetY,
      Heap.sizeSetLength, Heap.sizeSetWidth, bind, Except.bind, Heap.write]
    try rfl
  case setSizeObj z =>
    simp only [RectCall.value, Option.map_eq_some_iff] at hw
    obtain ⟨a, ha, rfl⟩ := hw
    have eq := Heap.size_ok.mpr (hs.size z a ha)
    refine ⟨_, ?_, Rewritten.new_size hr hp hz _⟩
    simp only [RectCall.run, Heap.rectSetSizeObj, er, eq, Heap.newSizeCopy, Heap.alloc, bind, Except.bind, Heap.write]
  case assign4 l t len wid =>
    obtain rfl : _ = w := Option.some.inj hw
    refine ⟨_, ?_, Rewritten.set_parts hr hp hz _ _⟩
    simp only [RectCall.run, Heap.rectAssign4, er, es, ev, ep, es', Heap.vecAssign, Heap.sizeAssign, Heap.vecSetX, Heap.vecSetY,
      Heap.sizeSetLength, Heap.sizeSetWidth, bind, Except.bind, Heap.write]
    try rfl
  case assign3 q len wid =>
    simp only [RectCall.value, Option.map_eq_some_iff] at hw
    obtain ⟨a, ha, rfl⟩ := hw
    have eq := Heap.vec_ok.mpr (hs.vec q a ha)
    refine ⟨_, ?_, Rewritten.new_corner_set_size hr hp hz _ _⟩
    have e1 : Heap.size (List.set (h ++ [Obj.vec (Vec.ofVec a)]) r (Obj.rect h.length s)) s = .ok v.size :=
      Heap.size_ok.mpr (by rw [List.getElem?_set_ne n3, List.getElem?_append_left (lt hz), hz])
    simp only [RectCall.run, Heap.rectAssign3, er, eq, e1, Heap.newVecCopy, Heap.sizeAssign, Heap.alloc, bind, Except.bind,
      Heap.write]
  case assignCorners q q' =>
    simp only [RectCall.value, Option.map_eq_some_iff, Option.bind_eq_some_iff] at hw
    obtain ⟨a, ha, b, hb, rfl⟩ := hw
    have eq := Heap.vec_ok.mpr (hs.vec q a ha)
    have eq' := Heap.vec_ok.mpr (hs.vec q' b hb)
    refine ⟨_, ?_, Rewritten.new_parts hr hp hz (Rect.ofCorners a b).topLeft (Rect.ofCorners a b).size⟩
    simp only [RectCall.run, Heap.rectAssignCorners, er, eq, eq', Heap.alloc, bind, Except.bind, Heap.write]
    simp
  case assignRect o =>
    simp only [RectCall.value, Option.map_eq_some_iff] at hw
    obtain ⟨a, ha, rfl⟩ := hw
    obtain ⟨p2, s2, hr2, hp2, hz2⟩ := hs.rect o a ha
    refine ⟨_, ?_, Rewritten.new_parts hr hp hz _ _⟩
    have e1 : Heap.size (h ++ [Obj.vec (Vec.ofVec a.topLeft)]) s2 = .ok a.size :=
      Heap.size_ok.mpr (by rw [List.getElem?_append_left (lt hz2), hz2])
    simp only [RectCall.run, Heap.rectAssignRect, er, Heap.rect_ok.mpr hr2, Heap.vec_ok.mpr hp2, Heap.newVecCopy, e1,
      Heap.newSizeCopy, Heap.alloc, bind, Except.bind, Heap.write]
    simp
  case intersected o =>
    by_cases ho : o = r
    · subst ho
      obtain rfl : _ = w := Option.some.inj (by simpa [RectCall.value] using hw)
      unfold selfIntersected
      by_cases hval : v.isValid = true
      · simp only [hval, if_true]
        refine ⟨_, ?_, Rewritten.set_parts hr hp hz (v.intersected v).topLeft (v.intersected v).size⟩
        rw [Rect.intersected_eq]
        simp [RectCall.run, Heap.rectIntersected, er, ep, ev, hval, bind, Except.bind, Heap.write, Except.map, Vec.assign]
      · have hval' : v.isValid = false := by simpa using hval
        simp only [hval', Bool.false_eq_true, if_false]
        refine ⟨_, ?_, Rewritten.set_parts hr hp hz _ _⟩
        have e1 := parts0 (v.topLeft.assign (num 0) (num 0)) (Size.ofLW (num 0) (num 0))
        simp only [RectCall.run, Heap.rectIntersected, er, ep, ev, hval', bind, Except.bind, Heap.write, Except.map, e1.1,
          e1.2, Bool.not_false, if_true, set_four n1]
        simp [Rect.left, Rect.top, Rect.right, Rect.bottom, Vec.assign, Size.ofLW, fabs_real, pyMax, pyMin]
    · obtain ⟨b, hb, rfl⟩ : ∃ b, E.rect o = some b ∧ v.intersected b = w := by
        simpa [RectCall.value, ho] using hw
      obtain ⟨p2, s2, hr2, hp2, hz2⟩ := hs.rect o b hb
      refine ⟨_, ?_, Rewritten.set_parts hr hp hz (v.intersected b).topLeft (v.intersected b).size⟩
      have e2 := Heap.rectVal_ok hr2 hp2 hz2
      rw [Rect.intersected_eq]
      by_cases hval : b.isValid = true
      · simp [RectCall.run, Heap.rectIntersected, er, ep, ev, e2, hval, bind, Except.bind, Heap.write, Except.map,
          Vec.assign]
      · have hval' : b.isValid = false := by simpa using hval
        have e1 := parts0 (v.topLeft.assign (num 0) (num 0)) (Size.ofLW (num 0) (num 0))
        have e3 := others o b ho hb (v.topLeft.assign (num 0) (num 0)) (Size.ofLW (num 0) (num 0))
        simp only [RectCall.run, Heap.rectIntersected, er, ep, e2, hval', bind, Except.bind, Heap.write, Except.map, e1.1,
          e1.2, e3, Bool.not_false, if_true, set_four n1]
        simp [Vec.assign]
  case united o =>
    by_cases ho : o = r
    · subst ho
      obtain rfl : _ = w := Option.some.inj (by simpa [RectCall.value] using hw)
      unfold selfUnited
      by_cases hval : v.isValid = true
      · simp only [hval, if_true]
        refine ⟨_, ?_, Rewritten.set_parts hr hp hz _ _⟩
        have e1 := parts0 v.topLeft (Size.ofLW (num 0) (num 0))
        have e4 := size3 v.topLeft (Size.ofLW (num 0) (num 0))
        have e5 := hset (Obj.size (Size.ofLW (num 0) (num 0)))
        simp only [RectCall.run, Heap.rectUnited, er, ep, es, ev, hval, bind, Except.bind, Heap.write, Except.map,
          Heap.sizeAssign, Heap.vecAssign, Bool.not_true, Bool.false_eq_true, if_false, e5, e1.1, e1.2, e4, set_four n1]
        simp [Rect.left, Rect.top, Rect.right, Rect.bottom, Vec.assign, Size.ofLW, fabs_real, pyMax, pyMin]
      · have hval' : v.isValid = false := by simpa using hval
        simp only [hval', Bool.false_eq_true, if_false]
        refine ⟨_, ?_, Rewritten.set_parts hr hp hz _ _⟩
        have e1 := parts0 (v.topLeft.assign (num 0) (num 0)) (Size.ofLW (num 0) (num 0))
        have e4 := size3 (v.topLeft.assign (num 0) (num 0)) (Size.ofLW (num 0) (num 0))
        simp only [RectCall.run, Heap.rectUnited, er, ep, es', ev, hval', bind, Except.bind, Heap.write, Except.map,
          Heap.sizeAssign, Heap.vecAssign, Bool.not_false, if_true, e1.1, e1.2, e4, set_four n1]
        simp [Rect.left, Rect.top, Rect.right, Rect.bottom, Vec.assign, Size.ofLW, fabs_real, pyMax, pyMin]
    · obtain ⟨b, hb, rfl⟩ : ∃ b, E.rect o = some b ∧ v.united b = w := by
        simpa [RectCall.value, ho] using hw
      obtain ⟨p2, s2, hr2, hp2, hz2⟩ := hs.rect o b hb
      refine ⟨_, ?_, Rewritten.set_parts hr hp hz (v.united b).topLeft (v.united b).size⟩
      have e2 := Heap.rectVal_ok hr2 hp2 hz2
      rw [Rect.united_eq]
      by_cases hval : b.isValid = true
      · have e1 := parts0 v.topLeft (Size.ofLW (num 0) (num 0))
        have e3 := others o b ho hb v.topLeft (Size.ofLW (num 0) (num 0))
        have e4 := size3 v.topLeft (Size.ofLW (num 0) (num 0))
        have e5 := hset (Obj.size (Size.ofLW (num 0) (num 0)))
        simp only [RectCall.run, Heap.rectUnited, er, ep, es, e2, hval, bind, Except.bind, Heap.write, Except.map,
          Heap.sizeAssign, Heap.vecAssign, Bool.not_true, Bool.false_eq_true, if_false, e5, e1.1, e1.2, e3, e4, set_four n1]
        simp [Vec.assign]
      · have hval' : b.isValid = false := by simpa using hval
        have e1 := parts0 (v.topLeft.assign (num 0) (num 0)) (Size.ofLW (num 0) (num 0))
        have e3 := others o b ho hb (v.topLeft.assign (num 0) (num 0)) (Size.ofLW (num 0) (num 0))
        have e4 := size3 (v.topLeft.assign (num 0) (num 0)) (Size.ofLW (num 0) (num 0))
        simp only [RectCall.run, Heap.rectUnited, er, ep, es', e2, hval', bind, Except.bind, Heap.write, Except.map,
          Heap.sizeAssign, Heap.vecAssign, Bool.not_false, if_true, e1.1, e1.2, e3, e4, set_four n1]
        simp [Vec.assign]

/-- A program: calls on rectangle objects, one after the other. -/
noncomputable def runObjects (h : Heap ℝ) : List (Addr × RectCall) → Except PyErr (Heap ℝ)
  | [] => .ok h
  | (r, c) :: prog => (c.run h r).bind fun h' => runObjects h' prog

/-- The same program on values: each call changes the value of its receiver and nothing else. -/
noncomputable def runValues (E : Known) : List (Addr × RectCall) → Option Known
  | [] => some E
  | (r, c) :: prog => (E.rect r).bind fun v => (c.value E r v).bind fun w =>
      runValues { E with rect := Function.update E.rect r (some w) } prog

/-- **C157** Rectangle objects which share no parts behave as rectangle values: for every program the calls on the objects
succeed, and afterwards each rectangle has the value which the program on values gives it (and still nothing is
shared). -/
theorem C157_program {h : Heap ℝ} {E E' : Known} (hs : Separate h E) (prog : List (Addr × RectCall))
    (hv : runValues E prog = some E') : ∃ h', runObjects h prog = .ok h' ∧ Separate h' E' := by
  induction prog generalizing h E with
  | nil =>
    simp only [runValues, Option.some.injEq] at hv
    subst hv
    exact ⟨h, rfl, hs⟩
  | cons rc prog ih =>
    obtain ⟨r, c⟩ := rc
    simp only [runValues, Option.bind_eq_some_iff] at hv
    obtain ⟨v, h1, w, h2, h3⟩ := hv
    obtain ⟨p, s, hr, _, _⟩ := hs.rect r v h1
    obtain ⟨h', e1, e2⟩ := RectCall.step hs h1 hr c h2
    obtain ⟨h'', e3, e4⟩ := ih (hs.upd h1 hr e2) h3
    exact ⟨h'', by simp [runObjects, e1, Except.bind, e3], e4⟩

/-- **C157** `r.intersected(r)` leaves a rectangle with positive sides as it is; a rectangle without area is moved to the
origin with sides 0. -/
theorem C157_self_intersected (v : Rect ℝ) : selfIntersected v =
    if 0 < v.size.length ∧ 0 < v.size.width then v else ⟨⟨0, 0, v.topLeft.valid⟩, ⟨0, 0⟩⟩ := by
  unfold selfIntersected
  by_cases hv : 0 < v.size.length ∧ 0 < v.size.width
  · have h1 : v.isValid = true := by simpa [Rect.isValid, Size.isValid] using hv
    rw [if_pos h1, if_pos hv, Rect.intersected_eq]
    obtain ⟨⟨x, y, b⟩, ⟨l, w⟩⟩ := v
    obtain ⟨hl, hw⟩ := hv
    simp only at hl hw
    simp [h1, Rect.left, Rect.top, Rect.right, Rect.bottom, Size.ofLW, fabs_real, pyMax, pyMin, abs_of_pos hl, abs_of_pos hw]
  · have h1 : ¬ v.isValid = true := by simpa [Rect.isValid, Size.isValid] using hv
    rw [if_neg h1, if_neg hv]

/-- **C157** Two rectangles made with the same `Size2D` object do share: what is done to the size of one is done to the
size of the other, whose corner stays (so the hypothesis of `C157_program` is needed). -/
theorem C157_shared {h : Heap ℝ} {r r' p p' s : ℕ} {a a' : Vec ℝ} {b : Size ℝ} (hr : h[r]? = some (.rect p s))
    (hr' : h[r']? = some (.rect p' s)) (hp : h[p]? = some (.vec a)) (hp' : h[p']? = some (.vec a'))
    (hb : h[s]? = some (.size b)) (hpp : p ≠ p') (x y : ℝ) :
    (∃ h', h.rectSetLength r x = .ok h' ∧ h'.rectVal r' = .ok ⟨a', ⟨|x|, b.width⟩⟩) ∧
    (∃ h', h.rectSetWidth r y = .ok h' ∧ h'.rectVal r' = .ok ⟨a', ⟨b.length, |y|⟩⟩) ∧
    (∃ h', h.rectSetSize2 r x y = .ok h' ∧ h'.rectVal r' = .ok ⟨a', ⟨|x|, |y|⟩⟩) ∧
    (∃ h', h.rectSetRight r x = .ok h' ∧ h'.rectVal r' = .ok ⟨a', ⟨|x - a.x|, b.width⟩⟩) := by
  have lt : ∀ {x : ℕ} {o : Obj ℝ}, h[x]? = some o → x < h.length := fun ho => (List.getElem?_eq_some_iff.mp ho).1
  have n1 : p ≠ s := by rintro rfl; rw [hp] at hb; simp at hb
  have n1' : p' ≠ s := by rintro rfl; rw [hp'] at hb; simp at hb
  have n2' : r' ≠ p := by rintro rfl; rw [hp] at hr'; simp at hr'
  have n3' : r' ≠ s := by rintro rfl; rw [hb] at hr'; simp at hr'
  have er := Heap.rect_ok.mpr hr
  have ep := Heap.vec_ok.mpr hp
  have es := Heap.size_ok.mpr hb
  have ev := Heap.rectVal_ok hr hp hb
  have val : ∀ z : Size ℝ, Heap.rectVal (List.set h s (Obj.size z)) r' = .ok ⟨a', z⟩ := by
    intro z
    refine Heap.rectVal_ok (p := p') (s := s) ?_ ?_ (List.getElem?_set_self (lt hb))
    · rw [List.getElem?_set_ne n3'.symm, hr']
    · rw [List.getElem?_set_ne n1'.symm, hp']
  have val2 : ∀ (w : Vec ℝ) (z : Size ℝ), Heap.rectVal (List.set (List.set h p (Obj.vec w)) s (Obj.size z)) r' =
      .ok ⟨a', z⟩ := by
    intro w z
    refine Heap.rectVal_ok (p := p') (s := s) ?_ ?_ (List.getElem?_set_self (by rw [List.length_set]; exact lt hb))
    · rw [List.getElem?_set_ne n3'.symm, List.getElem?_set_ne n2'.symm, hr']
    · rw [List.getElem?_set_ne n1'.symm, List.getElem?_set_ne hpp, hp']
  have es' : ∀ w : Vec ℝ, Heap.size (List.set h p (Obj.vec w)) s = .ok b := fun w =>
    Heap.size_ok.mpr (by rw [List.getElem?_set_ne n1, hb])
  refine ⟨⟨_, ?_, val _⟩, ⟨_, ?_, val _⟩, ⟨_, ?_, val _⟩, ⟨_, ?_, val2 (a.setX (pyMin a.x x)) _⟩⟩
  · simp [Heap.rectSetLength, er, es, bind, Except.bind, Heap.write, Size.setLength, fabs_real]
  · simp [Heap.rectSetWidth, Heap.sizeSetWidth, er, es, bind, Except.bind, Heap.write, Size.setWidth, fabs_real]
  · simp [Heap.rectSetSize2, Heap.sizeAssign, er, es, bind, Except.bind, Heap.write, Size.ofLW, fabs_real]
  · simp only [Heap.rectSetRight, Heap.sizeSetLength, Heap.vecSetX, er, ep, ev, es', bind, Except.bind, Heap.write,
      Size.setLength, fabs_real]
    have e : |pyMax a.x x - pyMin a.x x| = |x - a.x| := by
      simp only [pyMax, pyMin]
      split_ifs
      · linarith
      · rfl
      · exact abs_sub_comm _ _
      · have : x = a.x := by linarith
        simp [this]
    simp only [Rect.left, e]

/-- Two rectangles without shared parts and a point of the client. -/
noncomputable def twoRects : Heap ℝ :=
  [.vec ⟨0, 0, true⟩, .size ⟨2, 3⟩, .rect 0 1, .vec ⟨1, 1, true⟩, .size ⟨4, 1⟩, .rect 3 4, .vec ⟨5, 6, true⟩]

/-- What the client knows about them. -/
noncomputable def twoKnown : Known where
  vec := fun q => if q = 6 then some ⟨5, 6, true⟩ else none
  size := fun _ => none
  rect := fun r => if r = 2 then some ⟨⟨0, 0, true⟩, ⟨2, 3⟩⟩ else if r = 5 then some ⟨⟨1, 1, true⟩, ⟨4, 1⟩⟩ else none

/-- The hypothesis of C157 holds there. -/
theorem two_separate : Separate twoRects twoKnown := by
  have hd : ∀ r, twoKnown.rect r ≠ none → r = 2 ∨ r = 5 := by
    intro r hr
    by_contra hc
    push Not at hc
    exact hr (by simp [twoKnown, hc.1, hc.2])
  refine ⟨?_, ?_, ?_, ?_, ?_⟩
  · intro q v hq
    by_cases h6 : q = 6
    · subst h6
      simp [twoKnown] at hq
      simp [twoRects, hq]
    · simp [twoKnown, h6] at hq
  · intro z s hz; simp [twoKnown] at hz
  · intro r v hv
    rcases hd r (by rw [hv]; simp) with rfl | rfl
    · simp [twoKnown] at hv; subst hv; exact ⟨0, 1, rfl, rfl, rfl⟩
    · simp [twoKnown] at hv; subst hv; exact ⟨3, 4, rfl, rfl, rfl⟩
  · intro r r' p s p' s' h1 h2 hne e1 e2
    rcases hd r h1 with rfl | rfl <;> rcases hd r' h2 with rfl | rfl
    · exact absurd rfl hne
    · simp [twoRects] at e1 e2; obtain ⟨rfl, rfl⟩ := e1; obtain ⟨rfl, rfl⟩ := e2; decide
    · simp [twoRects] at e1 e2; obtain ⟨rfl, rfl⟩ := e1; obtain ⟨rfl, rfl⟩ := e2; decide
    · exact absurd rfl hne
  · intro r p s h1 e1
    rcases hd r h1 with rfl | rfl
    · simp [twoRects] at e1; obtain ⟨rfl, rfl⟩ := e1; simp [twoKnown]
    · simp [twoRects] at e1; obtain ⟨rfl, rfl⟩ := e1; simp [twoKnown]

/-- Moving one rectangle, intersecting the other with it, and the value that results. -/
example : ∃ h', runObjects twoRects [(2, .moveTopLeft 6), (5, .setLength 10), (5, .setWidth 10), (5, .intersected 2)] = .ok h' ∧
    h'.rectVal 5 = .ok ⟨⟨5, 6, true⟩, ⟨2, 3⟩⟩ ∧ h'.rectVal 2 = .ok ⟨⟨5, 6, true⟩, ⟨2, 3⟩⟩ := by
  have hE : ∃ E', runValues twoKnown [(2, .moveTopLeft 6), (5, .setLength 10), (5, .setWidth 10), (5, .intersected 2)] =
      some E' ∧ E'.rect 5 = some ⟨⟨5, 6, true⟩, ⟨2, 3⟩⟩ ∧ E'.rect 2 = some ⟨⟨5, 6, true⟩, ⟨2, 3⟩⟩ := by
    refine ⟨_, rfl, ?_, ?_⟩
    · simp [twoKnown, Function.update_apply, Rect.moveTopLeft, Rect.setLength, Rect.setWidth, Rect.intersected_eq, Vec.ofVec,
        Size.setLength, Size.setWidth, fabs_real, Rect.isValid, Size.isValid, Rect.left, Rect.right, Rect.top, Rect.bottom,
        pyMax, pyMin, Size.ofLW]
      norm_num [abs_of_pos]
    · simp [twoKnown, Function.update_apply, Rect.moveTopLeft, Vec.ofVec]
  obtain ⟨E', e1, e2, e3⟩ := hE
  obtain ⟨h', e4, e5⟩ := C157_program two_separate _ e1
  obtain ⟨p, s, f1, f2, f3⟩ := e5.rect 5 _ e2
  obtain ⟨p', s', g1, g2, g3⟩ := e5.rect 2 _ e3
  exact ⟨h', e4, Heap.rectVal_ok f1 f2 f3, Heap.rectVal_ok g1 g2 g3⟩

/-- `r.assign(point, size)` stores the caller's size object, for every heap: resizing either one resizes the other. The old corner and
size objects of `r` are left as they were. -/
theorem C95_rect_assign_refuted {h : Heap ℝ} {r p0 s0 q s : Addr} {v : Vec ℝ} {sz : Size ℝ} (hr : h[r]? = some (.rect p0 s0))
    (hq : h[q]? = some (.vec v)) (hs : h[s]? = some (.size sz)) (l w : ℝ) :
    ∃ h1 h2 h3, h.rectAssignSize r q s = .ok h1 ∧ h1.rectVal r = .ok ⟨Vec.ofVec v, sz⟩ ∧
      (∀ x, x < h.length → x ≠ r → h1[x]? = h[x]?) ∧
      h1.sizeAssign s l w = .ok (s, h2) ∧ h2.rectVal r = .ok ⟨Vec.ofVec v, Size.ofLW l w⟩ ∧
      h1.rectSetLength r l = .ok h3 ∧ h3.size s = .ok (sz.setLength l) := by
  have hlr : r < h.length := (List.getElem?_eq_some_iff.mp hr).1
  have hls : s < h.length := (List.getElem?_eq_some_iff.mp hs).1
  have n0 : r ≠ h.length := Nat.ne_of_lt hlr
  have n1 : s ≠ h.length := Nat.ne_of_lt hls
  have n2 : s ≠ r := by rintro rfl; rw [hr] at hs; simp at hs
  set h1 : Heap ℝ := (h ++ [Obj.vec (Vec.ofVec v)]).set r (.rect h.length s) with hh1
  have g1 : h1[r]? = some (.rect h.length s) := by
    rw [hh1, List.getElem?_set_self]; rw [List.length_append]; exact Nat.lt_add_right _ hlr
  have g2 : h1[h.length]? = some (.vec (Vec.ofVec v)) := by
    rw [hh1, List.getElem?_set_ne n0, List.getElem?_append_right (le_refl _)]; simp
  have g3 : h1[s]? = some (.size sz) := by
    rw [hh1, List.getElem?_set_ne n2.symm, List.getElem?_append_left hls, hs]
  have g4 : ∀ o, (h1.set s o)[s]? = some o := by
    intro o
    rw [List.getElem?_set_self]
    rw [hh1, List.length_set, List.length_append]; exact Nat.lt_add_right _ hls
  refine ⟨h1, h1.set s (.size (Size.ofLW l w)), h1.set s (.size (sz.setLength l)), ?_, ?_, ?_, ?_, ?_, ?_, ?_⟩
  · simp [Heap.rectAssignSize, Heap.newVecCopy, Heap.rect_ok.mpr hr, Heap.vec_ok.mpr hq, Heap.alloc, Heap.write, bind, Except.bind,
      ← hh1]
  · simp [Heap.rectVal, Heap.rect_ok.mpr g1, Heap.vec_ok.mpr g2, Heap.size_ok.mpr g3, bind, Except.bind]
  · intro x hx hxr
    rw [hh1, List.getElem?_set_ne hxr.symm, List.getElem?_append_left hx]
  · simp [Heap.sizeAssign, Heap.size_ok.mpr g3, Heap.write, bind, Except.bind]
  · have k1 := Heap.rect_ok.mpr ((List.getElem?_set_ne (a := Obj.size (Size.ofLW l w)) n2).trans g1)
    have k2 := Heap.vec_ok.mpr ((List.getElem?_set_ne (a := Obj.size (Size.ofLW l w)) n1).trans g2)
    have k3 := Heap.size_ok.mpr (g4 (.size (Size.ofLW l w)))
    simp [Heap.rectVal, k1, k2, k3, bind, Except.bind]
  · simp [Heap.rectSetLength, Heap.rect_ok.mpr g1, Heap.size_ok.mpr g3, Heap.write, bind, Except.bind]
  · exact Heap.size_ok.mpr (g4 _)

end PyrusGeom
