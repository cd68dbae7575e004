import Verif.Props.HeapRect

/-!
# What constructors and accessors of objects return (C156)
-/

open PyrusGeom PyrusGeom.Spec

namespace PyrusGeom

theorem Heap.angle_ok {h : Heap ℝ} {a : Addr} {v : AngleDeg ℝ} : h.angle a = .ok v ↔ h[a]? = some (.angle v) := by
  unfold Heap.angle; split <;> simp_all

theorem Heap.ray_ok {h : Heap ℝ} {a o t : Addr} : h.ray a = .ok (o, t) ↔ h[a]? = some (.ray o t) := by
  unfold Heap.ray; split <;> simp_all

theorem Heap.newVecCopy_ok {h : Heap ℝ} {p : ℕ} {v : Vec ℝ} (hp : h[p]? = some (.vec v)) :
    h.newVecCopy p = .ok (h.length, h ++ [Obj.vec ⟨v.x, v.y, true⟩]) := by
  simp [Heap.newVecCopy, Heap.vec_ok.mpr hp, bind, Except.bind, Heap.alloc, Vec.ofVec]

theorem Heap.newAngleCopy_ok {h : Heap ℝ} {p : ℕ} {a : AngleDeg ℝ} (hp : h[p]? = some (.angle a)) (ha : AngleDeg.Normal a) :
    h.newAngleCopy p = .ok (h.length, h ++ [Obj.angle a]) := by
  have e : AngleDeg.ofAngle a = a := by
    have e1 := AngleDeg.degree_of_normal ha
    ext
    show (AngleDeg.ofNum a.degree).deg = a.deg
    rw [e1]; exact e1
  simp [Heap.newAngleCopy, Heap.angle_ok.mpr hp, bind, Except.bind, Heap.alloc, e]

theorem Heap.newSizeCopy_ok {h : Heap ℝ} {p : ℕ} {s : Size ℝ} (hp : h[p]? = some (.size s)) (hs : 0 ≤ s.length ∧ 0 ≤ s.width) :
    h.newSizeCopy p = .ok (h.length, h ++ [Obj.size s]) := by
  simp [Heap.newSizeCopy, Heap.size_ok.mpr hp, bind, Except.bind, Heap.alloc, Size.ofLW, fabs_real, abs_of_nonneg hs.1,
    abs_of_nonneg hs.2]

theorem getElem?_append_of_some {α : Type} {l m : List α} {i : ℕ} {x : α} (h : l[i]? = some x) : (l ++ m)[i]? = some x := by
  rw [List.getElem?_append_left (List.getElem?_eq_some_iff.mp h).1, h]

/-- **C156** Constructors from objects: the call succeeds, the old objects are as before, and the new object has parts of
its own with the values of the arguments; only `Rect2D(point, size)` takes the size object itself.  A negative radius
becomes 0, sides become their absolute values. -/
theorem C156_constructors {h : Heap ℝ} {p q a z : ℕ} {v w : Vec ℝ} {d : AngleDeg ℝ} {s : Size ℝ}
    (hp : h[p]? = some (.vec v)) (hq : h[q]? = some (.vec w)) (ha : h[a]? = some (.angle d)) (hd : AngleDeg.Normal d)
    (hz : h[z]? = some (.size s)) (x y : ℝ) :
    (∃ r h', h.newSeg p q = .ok (r, h') ∧ h <+: h' ∧ ∃ o t, h'[r]? = some (.seg o t) ∧ h.length ≤ o ∧ h.length ≤ t ∧ o ≠ t ∧
      h'[o]? = some (.vec ⟨v.x, v.y, true⟩) ∧ h'[t]? = some (.vec ⟨w.x, w.y, true⟩)) ∧
    (∃ r h', h.newRay p a = .ok (r, h') ∧ h <+: h' ∧ ∃ o t, h'[r]? = some (.ray o t) ∧ h.length ≤ o ∧ h.length ≤ t ∧
      h'[o]? = some (.vec ⟨v.x, v.y, true⟩) ∧ h'[t]? = some (.angle d)) ∧
    (∃ r h', h.newCircle p x = .ok (r, h') ∧ h <+: h' ∧ ∃ o, h'[r]? = some (.circle o (max x 0)) ∧ h.length ≤ o ∧
      h'[o]? = some (.vec ⟨v.x, v.y, true⟩)) ∧
    (∃ r h', h.newRectLW p x y = .ok (r, h') ∧ h <+: h' ∧ ∃ o t, h'[r]? = some (.rect o t) ∧ h.length ≤ o ∧ h.length ≤ t ∧
      h'[o]? = some (.vec ⟨v.x, v.y, true⟩) ∧ h'[t]? = some (.size ⟨|x|, |y|⟩)) ∧
    (∃ r h', h.newRectSize p z = .ok (r, h') ∧ h <+: h' ∧ ∃ o, h'[r]? = some (.rect o z) ∧ h.length ≤ o ∧
      h'[o]? = some (.vec ⟨v.x, v.y, true⟩) ∧ h'[z]? = some (.size s)) := by
  have ev := Heap.newVecCopy_ok hp
  refine ⟨?_, ?_, ?_, ?_, ?_⟩
  · have e2 := Heap.newVecCopy_ok (h := h ++ [Obj.vec ⟨v.x, v.y, true⟩]) (getElem?_append_of_some hq)
    refine ⟨_, _, by simp only [Heap.newSeg, ev, e2, bind, Except.bind, Heap.alloc]; rfl, ?_, h.length, h.length + 1, ?_, ?_⟩
    · simp
    · simp
    · simp
  · have e2 := Heap.newAngleCopy_ok (h := h ++ [Obj.vec ⟨v.x, v.y, true⟩]) (getElem?_append_of_some ha) hd
    refine ⟨_, _, by simp only [Heap.newRay, ev, e2, bind, Except.bind, Heap.alloc]; rfl, ?_, h.length, h.length + 1, ?_, ?_⟩
    · simp
    · simp
    · simp
  · refine ⟨_, _, by simp only [Heap.newCircle, ev, bind, Except.bind, Heap.alloc]; rfl, ?_, h.length, ?_, ?_⟩
    · simp
    · have : (if x < num 0 then num 0 else x) = max x 0 := by
        simp only [num_real, Nat.cast_zero]
        split_ifs with hx
        · rw [max_eq_right hx.le]
        · rw [max_eq_left (not_lt.mp hx)]
      rw [this]; simp
    · simp
  · refine ⟨_, _, by simp only [Heap.newRectLW, ev, bind, Except.bind, Heap.alloc]; rfl, ?_, h.length, h.length + 1, ?_, ?_⟩
    · simp
    · simp
    · simp [Size.ofLW, fabs_real]
  · refine ⟨_, _, by simp only [Heap.newRectSize, ev, bind, Except.bind, Heap.alloc]; rfl, ?_, h.length, ?_, ?_⟩
    · simp
    · simp
    · simp only [le_refl, true_and]
      refine ⟨by simp, getElem?_append_of_some (getElem?_append_of_some hz)⟩

/-- **C156** Accessors: each returns a new object with the value of the part; the old objects are as before. -/
theorem C156_accessors {h : Heap ℝ} {p q c a b z : ℕ} {u v w : Vec ℝ} {d e : AngleDeg ℝ} {s : Size ℝ}
    (hp : h[p]? = some (.vec u)) (hq : h[q]? = some (.vec v)) (hc : h[c]? = some (.vec w))
    (ha : h[a]? = some (.angle d)) (hd : AngleDeg.Normal d) (hb : h[b]? = some (.angle e)) (he : AngleDeg.Normal e)
    (hz : h[z]? = some (.size s)) (hs : 0 ≤ s.length ∧ 0 ≤ s.width) (r : ℕ) :
    (h[r]? = some (.seg p q) →
      h.segOrigin r = .ok (h.length, h ++ [Obj.vec ⟨u.x, u.y, true⟩]) ∧
      h.segTerminal r = .ok (h.length, h ++ [Obj.vec ⟨v.x, v.y, true⟩])) ∧
    (h[r]? = some (.ray p a) →
      h.rayOrigin r = .ok (h.length, h ++ [Obj.vec ⟨u.x, u.y, true⟩]) ∧
      h.rayDir r = .ok (h.length, h ++ [Obj.angle d])) ∧
    (∀ x, h[r]? = some (.circle p x) → h.circleCenter r = .ok (h.length, h ++ [Obj.vec ⟨u.x, u.y, true⟩])) ∧
    (∀ x y, h[r]? = some (.sector p x y a b) →
      h.sectorCenter r = .ok (h.length, h ++ [Obj.vec ⟨u.x, u.y, true⟩]) ∧
      h.sectorStart r = .ok (h.length, h ++ [Obj.angle d]) ∧ h.sectorEnd r = .ok (h.length, h ++ [Obj.angle e])) ∧
    (h[r]? = some (.tri p q c) →
      h.triA r = .ok (h.length, h ++ [Obj.vec ⟨u.x, u.y, true⟩]) ∧
      h.triB r = .ok (h.length, h ++ [Obj.vec ⟨v.x, v.y, true⟩]) ∧
      h.triC r = .ok (h.length, h ++ [Obj.vec ⟨w.x, w.y, true⟩])) ∧
    (h[r]? = some (.rect p z) →
      h.rectTopLeft r = .ok (h.length, h ++ [Obj.vec ⟨u.x, u.y, true⟩]) ∧
      h.rectSize r = .ok (h.length, h ++ [Obj.size s]) ∧
      h.rectCenter r = .ok (h.length, h ++ [Obj.vec ⟨u.x + s.length / 2, u.y + s.width / 2, true⟩])) := by
  have e1 := Heap.newVecCopy_ok hp
  have e2 := Heap.newVecCopy_ok hq
  have e3 := Heap.newVecCopy_ok hc
  have e4 := Heap.newAngleCopy_ok ha hd
  have e5 := Heap.newAngleCopy_ok hb he
  have e6 := Heap.newSizeCopy_ok hz hs
  refine ⟨fun hr => ?_, fun hr => ?_, fun x hr => ?_, fun x y hr => ?_, fun hr => ?_, fun hr => ?_⟩
  · simp only [Heap.segOrigin, Heap.segTerminal, Heap.seg_ok.mpr hr, bind, Except.bind, e1, e2, and_self]
  · simp only [Heap.rayOrigin, Heap.rayDir, Heap.ray_ok.mpr hr, bind, Except.bind, e1, e4, and_self]
  · simp only [Heap.circleCenter, Heap.circle, hr, bind, Except.bind, e1]
  · simp only [Heap.sectorCenter, Heap.sectorStart, Heap.sectorEnd, Heap.sector, hr, bind, Except.bind, e1, e4, e5, and_self]
  · simp only [Heap.triA, Heap.triB, Heap.triC, Heap.tri, hr, bind, Except.bind, e1, e2, e3, and_self]
  · refine ⟨?_, ?_, ?_⟩
    · simp only [Heap.rectTopLeft, Heap.rect_ok.mpr hr, bind, Except.bind, e1]
    · simp only [Heap.rectSize, Heap.rect_ok.mpr hr, bind, Except.bind, e6]
    · simp only [Heap.rectCenter, Heap.rectVal_ok hr hp hz, bind, Except.bind, Heap.alloc]
      simp [Rect.center, Rect.left, Rect.right, Rect.top, Rect.bottom, Vec.ofXY]
      constructor <;> ring

/-- Non-vacuity: a heap with a point, an angle and a size. -/
example : ∃ r h', Heap.newCircle [Obj.vec ⟨(1 : ℝ), 2, true⟩, .angle ⟨30⟩, .size ⟨1, 1⟩] 0 (-3) = .ok (r, h') ∧
    ∃ o, h'[r]? = some (.circle o 0) ∧ 3 ≤ o := by
  obtain ⟨_, _, ⟨r, h', e1, _, o, e2, e3, _⟩, _⟩ := C156_constructors
    (h := [Obj.vec ⟨(1 : ℝ), 2, true⟩, .angle ⟨30⟩, .size ⟨1, 1⟩]) (p := 0) (q := 0) (a := 1) (z := 2) rfl rfl rfl
    ⟨by norm_num, by norm_num⟩ rfl (-3) 0
  refine ⟨r, h', e1, o, ?_, e3⟩
  rw [e2]; norm_num

end PyrusGeom
