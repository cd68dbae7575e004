import Verif.Model.Heap
import Verif.Lemmas.Vector

/-!
# C67, C95: object identity

The specification vocabulary (reachability, what the holder of a reference can do) is independent of the methods.
-/

namespace PyrusGeom

variable {K : Type}

namespace Spec

/-- `x` can be reached from `a` by following attributes and list elements. -/
inductive Reach (h : Heap K) : Addr → Addr → Prop
  | refl (a : Addr) : Reach h a a
  | tail {a b c : Addr} {o : Obj K} : Reach h a b → h[b]? = some o → c ∈ o.refs → Reach h a c

/-- No dangling references. -/
def Closed (h : Heap K) : Prop := ∀ (a : Addr) (o : Obj K), h[a]? = some o → ∀ b ∈ o.refs, b < h.length

/-- What can be reached from a set of references. -/
def known (h : Heap K) (R : Set Addr) : Set Addr := {x | ∃ r ∈ R, Reach h r x}

/-- What the holder of the references `R` can do to the heap: create objects that refer to known objects, and overwrite
known objects, in any order and any number of times. `Client R h h'`: from `h` to `h'`. -/
inductive Client : Set Addr → Heap K → Heap K → Prop
  | done (R : Set Addr) (h : Heap K) : Client R h h
  | alloc {R : Set Addr} {h h' : Heap K} (o : Obj K) :
      (∀ x ∈ o.refs, x ∈ known h R) → Client (insert h.length R) (h ++ [o]) h' → Client R h h'
  | write {R : Set Addr} {h h' : Heap K} (a : Addr) (o : Obj K) :
      a ∈ known h R → (∀ x ∈ o.refs, x ∈ known h R) → Client R (h.set a o) h' → Client R h h'

/-- The call on the object `s` in heap `h` with result `res` changes nothing that `s` consists of, and neither does
anything done later with the returned reference alone. -/
def Independent (h : Heap K) (s : Addr) (res : Except PyErr (Addr × Heap K)) : Prop :=
  ∀ r h1, res = .ok (r, h1) → ∀ h2, Client {r} h1 h2 → ∀ x, Reach h s x → h2[x]? = h[x]?

end Spec

open Spec

/-! ## Frame theorem -/

theorem Spec.Reach.lt {h : Heap K} (hc : Closed h) {a x : Addr} (ha : a < h.length) (hr : Reach h a x) :
    x < h.length := by
  induction hr with
  | refl => exact ha
  | tail _ ho hm _ => exact hc _ _ ho _ hm

/-- The reachable part is determined by the cells in it. -/
theorem Spec.Reach.congr {h h' : Heap K} {s x : Addr} (hsame : ∀ y, Reach h s y → h'[y]? = h[y]?)
    (hr : Reach h' s x) : Reach h s x := by
  induction hr with
  | refl => exact .refl _
  | tail _ ho hm ih => exact .tail ih ((hsame _ ih) ▸ ho) hm

theorem Spec.Reach.congr' {h h' : Heap K} {s x : Addr} (hsame : ∀ y, Reach h s y → h'[y]? = h[y]?)
    (hr : Reach h s x) : Reach h' s x := by
  induction hr with
  | refl => exact .refl _
  | tail h1 ho hm ih => exact .tail ih ((hsame _ h1).trans ho) hm

theorem Spec.known_closed {h : Heap K} {R : Set Addr} {a b : Addr} {o : Obj K} (ha : a ∈ known h R)
    (ho : h[a]? = some o) (hb : b ∈ o.refs) : b ∈ known h R := by
  obtain ⟨r, hr, hx⟩ := ha
  exact ⟨r, hr, hx.tail ho hb⟩

/-- Objects that share nothing with what a client knows are not changed by the client. -/
theorem Spec.Client.frame {R : Set Addr} {h h' : Heap K} (hcl : Client R h h') {s : Addr} (hc : Closed h)
    (hs : s < h.length) (hR : ∀ r ∈ R, r < h.length) (hdis : ∀ x ∈ known h R, ¬ Reach h s x) :
    ∀ x, Reach h s x → h'[x]? = h[x]? := by
  induction hcl with
  | done => intros; rfl
  | @alloc R h h' o ho _ ih =>
    have hlt : ∀ x ∈ known h R, x < h.length := by
      rintro x ⟨r, hr, hx⟩
      exact hx.lt hc (hR r hr)
    have hget : ∀ y, y < h.length → (h ++ [o])[y]? = h[y]? := fun y hy => List.getElem?_append_left hy
    have hsame : ∀ y, Reach h s y → (h ++ [o])[y]? = h[y]? := fun y hy => hget y (hy.lt hc hs)
    have hc' : Closed (h ++ [o]) := by
      intro a o' ha b hb
      rw [List.length_append]
      rcases lt_trichotomy a h.length with hl | hl | hl
      · rw [hget a hl] at ha
        exact Nat.lt_add_right _ (hc a o' ha b hb)
      · subst hl
        simp at ha
        subst ha
        exact Nat.lt_add_right _ (hlt b (ho b hb))
      · rw [List.getElem?_eq_none (by simp; omega)] at ha
        cases ha
    have hkn : ∀ x, x ∈ known (h ++ [o]) (insert h.length R) → x = h.length ∨ x ∈ known h R := by
      rintro x ⟨r, hr, hx⟩
      induction hx with
      | refl =>
        rcases hr with rfl | hr
        · exact .inl rfl
        · exact .inr ⟨r, hr, .refl r⟩
      | @tail b c o' _ ho' hm ih' =>
        rcases ih' with rfl | hk
        · simp at ho'
          subst ho'
          exact .inr (ho c hm)
        · rw [hget b (hlt b hk)] at ho'
          exact .inr (known_closed hk ho' hm)
    intro x hx
    rw [ih hc' (by rw [List.length_append]; exact Nat.lt_add_right _ hs) ?_ ?_ x (hx.congr' hsame), hsame x hx]
    · rintro r (rfl | hr)
      · simp
      · simpa using Nat.lt_succ_of_lt (hR r hr)
    · intro y hy hys
      have hys := hys.congr hsame
      rcases hkn y hy with rfl | hk
      · exact absurd (hys.lt hc hs) (lt_irrefl _)
      · exact hdis y hk hys
  | @write R h h' a o ha ho _ ih =>
    have hlt : ∀ x ∈ known h R, x < h.length := by
      rintro x ⟨r, hr, hx⟩
      exact hx.lt hc (hR r hr)
    have hget : ∀ y, y ≠ a → (h.set a o)[y]? = h[y]? := fun y hy => List.getElem?_set_ne (Ne.symm hy)
    have hsame : ∀ y, Reach h s y → (h.set a o)[y]? = h[y]? := by
      intro y hy
      refine hget y ?_
      rintro rfl
      exact hdis _ ha hy
    have hat : (h.set a o)[a]? = some o := by simp [hlt a ha]
    have hc' : Closed (h.set a o) := by
      intro b o' hb c hcm
      rw [List.length_set]
      by_cases hba : b = a
      · subst hba
        rw [hat] at hb
        cases hb
        exact hlt c (ho c hcm)
      · rw [hget b hba] at hb
        exact hc b o' hb c hcm
    have hkn : ∀ x, x ∈ known (h.set a o) R → x ∈ known h R := by
      rintro x ⟨r, hr, hx⟩
      induction hx with
      | refl => exact ⟨r, hr, .refl r⟩
      | @tail b c o' _ ho' hm ih' =>
        by_cases hba : b = a
        · subst hba
          rw [hat] at ho'
          cases ho'
          exact ho c hm
        · rw [hget b hba] at ho'
          exact known_closed ih' ho' hm
    intro x hx
    rw [ih hc' (by simpa using hs) (by simpa using hR) ?_ x (hx.congr' hsame), hsame x hx]
    intro y hy hys
    exact hdis y (hkn y hy) (hys.congr hsame)

/-- A call that returns a new object made of new objects only, and leaves the old ones alone, is independent. -/
theorem independent_of_fresh {h ext : Heap K} {s r : Addr} (hc : Closed h) (hs : s < h.length)
    (hr : h.length ≤ r) (hr' : r < h.length + ext.length)
    (hext : ∀ (i : ℕ) (o : Obj K), ext[i]? = some o → ∀ b ∈ o.refs, h.length ≤ b ∧ b < h.length + ext.length) :
    Independent h s (.ok (r, h ++ ext)) := by
  intro r' h1 he h2 hcl x hx
  obtain ⟨rfl, rfl⟩ := Prod.mk.inj (Except.ok.inj he)
  have hget : ∀ y, y < h.length → (h ++ ext)[y]? = h[y]? := fun y hy => List.getElem?_append_left hy
  have hget' : ∀ y, h.length ≤ y → (h ++ ext)[y]? = ext[y - h.length]? := fun y hy => List.getElem?_append_right hy
  have hsame : ∀ y, Reach h s y → (h ++ ext)[y]? = h[y]? := fun y hy => hget y (hy.lt hc hs)
  have hc' : Closed (h ++ ext) := by
    intro a o ha b hb
    rw [List.length_append]
    rcases lt_or_ge a h.length with hl | hl
    · rw [hget a hl] at ha
      exact Nat.lt_add_right _ (hc a o ha b hb)
    · rw [hget' a hl] at ha
      exact (hext _ o ha b hb).2
  have hnew : ∀ y, Reach (h ++ ext) r y → h.length ≤ y := by
    intro y hy
    induction hy with
    | refl => exact hr
    | tail _ ho hm ih =>
      rw [hget' _ ih] at ho
      exact (hext _ _ ho _ hm).1
  rw [hcl.frame hc' (s := s) (by rw [List.length_append]; exact Nat.lt_add_right _ hs) (by simpa using hr') ?_ x (hx.congr' hsame), hsame x hx]
  rintro y ⟨r', rfl, hy⟩ hys
  exact absurd ((hys.congr hsame).lt hc hs) (not_lt.mpr (hnew y hy))

/-- A call that raises is independent. -/
theorem independent_error {h : Heap K} {s : Addr} {e : PyErr} : Independent h s (.error e) := by
  intro r h1 he
  cases he

/-- A call that returns a new object without references is independent. -/
theorem independent_leaf {h : Heap K} {s : Addr} (hc : Closed h) (hs : s < h.length) (o : Obj K)
    (ho : o.refs = []) : Independent h s (.ok (h.alloc o)) := by
  refine independent_of_fresh (ext := [o]) hc hs le_rfl (by simp) ?_
  intro i o' hi b hb
  rcases i with - | i
  · simp at hi
    subst hi
    rw [ho] at hb
    cases hb
  · simp at hi

section
variable [Add K] [Sub K] [Mul K] [Div K] [Neg K] [NatCast K] [LT K] [LE K]
  [DecidableLT K] [DecidableLE K] [BEq K] [PyMath K]

theorem independent_newVecCopy {h : Heap K} {s p : Addr} (hc : Closed h) (hs : s < h.length) :
    Independent h s (h.newVecCopy p) := by
  unfold Heap.newVecCopy
  cases h.vec p with
  | error e => exact independent_error
  | ok v => exact independent_leaf hc hs _ rfl

theorem independent_newAngleCopy {h : Heap K} {s p : Addr} (hc : Closed h) (hs : s < h.length) :
    Independent h s (h.newAngleCopy p) := by
  unfold Heap.newAngleCopy
  cases h.angle p with
  | error e => exact independent_error
  | ok v => exact independent_leaf hc hs _ rfl

theorem independent_newSizeCopy {h : Heap K} {s p : Addr} (hc : Closed h) (hs : s < h.length) :
    Independent h s (h.newSizeCopy p) := by
  unfold Heap.newSizeCopy
  cases h.size p with
  | error e => exact independent_error
  | ok v => exact independent_leaf hc hs _ rfl

/-! ## C95: accessors -/

/-- `Segment2D.origin()` and `terminal()` -/
theorem C95_segment_partial {h : Heap K} {s : Addr} (hc : Closed h) (hs : s < h.length) :
    Independent h s (h.segOrigin s) ∧ Independent h s (h.segTerminal s) := by
  unfold Heap.segOrigin Heap.segTerminal
  cases h.seg s with
  | error e => exact ⟨independent_error, independent_error⟩
  | ok v => exact ⟨independent_newVecCopy hc hs, independent_newVecCopy hc hs⟩

/-- `Ray2D.origin()` and `dir()` -/
theorem C95_ray_partial {h : Heap K} {s : Addr} (hc : Closed h) (hs : s < h.length) :
    Independent h s (h.rayOrigin s) ∧ Independent h s (h.rayDir s) := by
  unfold Heap.rayOrigin Heap.rayDir
  cases h.ray s with
  | error e => exact ⟨independent_error, independent_error⟩
  | ok v => exact ⟨independent_newVecCopy hc hs, independent_newAngleCopy hc hs⟩

/-- `Circle2D.center()` -/
theorem C95_circle_partial {h : Heap K} {s : Addr} (hc : Closed h) (hs : s < h.length) :
    Independent h s (h.circleCenter s) := by
  unfold Heap.circleCenter
  cases h.circle s with
  | error e => exact independent_error
  | ok v => exact independent_newVecCopy hc hs

/-- `Sector2D.center()`, `angle_left_start()`, `angle_right_end()` -/
theorem C95_sector_partial {h : Heap K} {s : Addr} (hc : Closed h) (hs : s < h.length) :
    Independent h s (h.sectorCenter s) ∧ Independent h s (h.sectorStart s) ∧ Independent h s (h.sectorEnd s) := by
  unfold Heap.sectorCenter Heap.sectorStart Heap.sectorEnd
  cases h.sector s with
  | error e => exact ⟨independent_error, independent_error, independent_error⟩
  | ok v => exact ⟨independent_newVecCopy hc hs, independent_newAngleCopy hc hs, independent_newAngleCopy hc hs⟩

/-- `Triangle2D.a()`, `b()`, `c()` -/
theorem C95_triangle_partial {h : Heap K} {s : Addr} (hc : Closed h) (hs : s < h.length) :
    Independent h s (h.triA s) ∧ Independent h s (h.triB s) ∧ Independent h s (h.triC s) := by
  unfold Heap.triA Heap.triB Heap.triC
  cases h.tri s with
  | error e => exact ⟨independent_error, independent_error, independent_error⟩
  | ok v => exact ⟨independent_newVecCopy hc hs, independent_newVecCopy hc hs, independent_newVecCopy hc hs⟩

/-- `Rect2D.size()`, `top_left()`, `center()` -/
theorem C95_rect_partial {h : Heap K} {s : Addr} (hc : Closed h) (hs : s < h.length) :
    Independent h s (h.rectSize s) ∧ Independent h s (h.rectTopLeft s) ∧ Independent h s (h.rectCenter s) := by
  refine ⟨?_, ?_, ?_⟩
  · unfold Heap.rectSize
    cases h.rect s with
    | error e => exact independent_error
    | ok v => exact independent_newSizeCopy hc hs
  · unfold Heap.rectTopLeft
    cases h.rect s with
    | error e => exact independent_error
    | ok v => exact independent_newVecCopy hc hs
  · unfold Heap.rectCenter
    cases h.rectVal s with
    | error e => exact independent_error
    | ok v => exact independent_leaf hc hs _ rfl

/-- `Matrix2D.inverted()` and `A * v` -/
theorem C95_matrix_partial {h : Heap K} {s v : Addr} (hc : Closed h) (hs : s < h.length) :
    Independent h s (h.matInverted s) ∧ Independent h s (h.matMulVec s v) := by
  constructor
  · unfold Heap.matInverted
    cases h.mat s with
    | error e => exact independent_error
    | ok m => exact independent_leaf hc hs _ rfl
  · unfold Heap.matMulVec
    cases h.mat s with
    | error e => exact independent_error
    | ok m =>
      cases h.vec v with
      | error e => exact independent_error
      | ok m => exact independent_leaf hc hs _ rfl

theorem Heap.vec_ok {h : Heap K} {a : Addr} {v : Vec K} : h.vec a = .ok v ↔ h[a]? = some (.vec v) := by
  unfold Heap.vec
  split <;> simp_all

theorem Heap.seg_ok {h : Heap K} {a : Addr} {o t : Addr} : h.seg a = .ok (o, t) ↔ h[a]? = some (.seg o t) := by
  unfold Heap.seg
  split <;> simp_all

theorem Heap.mat_ok {h : Heap K} {a : Addr} {v : Mat K} : h.mat a = .ok v ↔ h[a]? = some (.mat v) := by
  unfold Heap.mat
  split <;> simp_all

theorem Heap.list_ok {h : Heap K} {a : Addr} {v : List Addr} : h.list a = .ok v ↔ h[a]? = some (.list v) := by
  unfold Heap.list
  split <;> simp_all

theorem Heap.poly_ok {h : Heap K} {a v : Addr} : h.poly a = .ok v ↔ h[a]? = some (.poly v) := by
  unfold Heap.poly
  split <;> simp_all

theorem Heap.size_ok {h : Heap K} {a : Addr} {v : Size K} : h.size a = .ok v ↔ h[a]? = some (.size v) := by
  unfold Heap.size
  split <;> simp_all

theorem Heap.rect_ok {h : Heap K} {a : Addr} {o t : Addr} : h.rect a = .ok (o, t) ↔ h[a]? = some (.rect o t) := by
  unfold Heap.rect
  split <;> simp_all

theorem Heap.hull_ok {h : Heap K} {a i v e : Addr} : h.hull a = .ok (i, v, e) ↔ h[a]? = some (.hull i v e) := by
  unfold Heap.hull
  split <;> simp_all

/-- The returned objects have the values of the parts. -/
theorem C95_values {h : Heap K} {s o t : Addr} {v w : Vec K} (hs : h[s]? = some (.seg o t)) (ho : h[o]? = some (.vec v))
    (ht : h[t]? = some (.vec w)) :
    (∃ r h1, h.segOrigin s = .ok (r, h1) ∧ h1[r]? = some (.vec (Vec.ofVec v))) ∧
      (∃ r h1, h.segTerminal s = .ok (r, h1) ∧ h1[r]? = some (.vec (Vec.ofVec w))) := by
  constructor
  · refine ⟨h.length, h ++ [.vec (Vec.ofVec v)], ?_, by simp⟩
    simp [Heap.segOrigin, Heap.seg_ok.mpr hs, Heap.newVecCopy, Heap.vec_ok.mpr ho, Heap.alloc, bind, Except.bind]
  · refine ⟨h.length, h ++ [.vec (Vec.ofVec w)], ?_, by simp⟩
    simp [Heap.segTerminal, Heap.seg_ok.mpr hs, Heap.newVecCopy, Heap.vec_ok.mpr ht, Heap.alloc, bind, Except.bind]

/-- A call that returns a reference to a part of the queried object is not independent, provided the part can take
another value. -/
theorem not_independent_of_alias {h : Heap K} {s r : Addr} (hr : Reach h s r) {o o' : Obj K} (ho : h[r]? = some o)
    (hne : o' ≠ o) (hrefs : ∀ x ∈ o'.refs, x ∈ known h {r}) : ¬ Independent h s (.ok (r, h)) := by
  intro hi
  have hlt : r < h.length := by
    by_contra hge
    rw [List.getElem?_eq_none (not_lt.mp hge)] at ho
    cases ho
  have := hi r h rfl (h.set r o') (.write r o' ⟨r, rfl, .refl r⟩ hrefs (.done _ _)) r hr
  rw [ho] at this
  simp [hlt] at this
  exact hne this

/-- `Segment2D.copy()` and `reversed_segment()` consist of new objects. -/
theorem C95_segment_copy_partial {h : Heap K} {s o t : Addr} {v w : Vec K} (hc : Closed h)
    (hs : h[s]? = some (.seg o t)) (ho : h[o]? = some (.vec v)) (ht : h[t]? = some (.vec w)) :
    Independent h s (h.segCopy s) ∧ Independent h s (h.segReversed s) := by
  have hlt : s < h.length := (List.getElem?_eq_some_iff.mp hs).1
  have hlo : o < h.length := (List.getElem?_eq_some_iff.mp ho).1
  have hlt' : t < h.length := (List.getElem?_eq_some_iff.mp ht).1
  constructor
  · have : h.segCopy s = .ok (h.length + 4, h ++ [.vec (Vec.ofVec v), .vec (Vec.ofVec w),
        .vec (Vec.ofVec (Vec.ofVec v)), .vec (Vec.ofVec (Vec.ofVec w)), .seg (h.length + 2) (h.length + 3)]) := by
      have e1 : (h ++ [Obj.vec (Vec.ofVec v)])[s]? = some (.seg o t) := by
        rw [List.getElem?_append_left hlt, hs]
      have e2 : (h ++ [Obj.vec (Vec.ofVec v)])[t]? = some (.vec w) := by
        rw [List.getElem?_append_left hlt', ht]
      have e3 : (h ++ [Obj.vec (Vec.ofVec v), .vec (Vec.ofVec w)])[h.length]? = some (.vec (Vec.ofVec v)) := by
        rw [List.getElem?_append_right (by omega)]; simp
      have e4 : (h ++ [Obj.vec (Vec.ofVec v), .vec (Vec.ofVec w), .vec (Vec.ofVec (Vec.ofVec v))])[h.length + 1]? =
          some (.vec (Vec.ofVec w)) := by
        rw [List.getElem?_append_right (by omega)]; simp
      simp [Heap.segCopy, Heap.segOrigin, Heap.segTerminal, Heap.newSeg, Heap.newVecCopy, Heap.alloc,
        Heap.seg_ok.mpr hs, Heap.vec_ok.mpr ho, Heap.seg_ok.mpr e1, Heap.vec_ok.mpr e2, Heap.vec_ok.mpr e3,
        Heap.vec_ok.mpr e4, bind, Except.bind]
    rw [this]
    refine independent_of_fresh hc hlt (by omega) (by simp) ?_
    intro i o' hi b hb
    match i, hi with
    | 0, hi | 1, hi | 2, hi | 3, hi => simp at hi; subst hi; cases hb
    | 4, hi =>
      simp at hi; subst hi
      simp [Obj.refs] at hb
      rcases hb with rfl | rfl <;> simp
    | i + 5, hi => simp at hi
  · have : h.segReversed s = .ok (h.length + 2, h ++ [.vec (Vec.ofVec v), .vec (Vec.ofVec w),
        .seg (h.length + 1) h.length]) := by
      have e2 : (h ++ [Obj.vec (Vec.ofVec v)])[t]? = some (.vec w) := by
        rw [List.getElem?_append_left hlt', ht]
      have e3 : (h ++ [Obj.vec (Vec.ofVec v), .vec (Vec.ofVec w), .seg h.length (h.length + 1)])[h.length + 2]? =
          some (.seg h.length (h.length + 1)) := by
        rw [List.getElem?_append_right (by omega)]; simp
      simp [Heap.segReversed, Heap.newSeg, Heap.newVecCopy, Heap.alloc, Heap.segSwap, Heap.write,
        Heap.seg_ok.mpr hs, Heap.vec_ok.mpr ho, Heap.vec_ok.mpr e2, Heap.seg_ok.mpr e3, bind, Except.bind]
    rw [this]
    refine independent_of_fresh hc hlt (by omega) (by simp) ?_
    intro i o' hi b hb
    match i, hi with
    | 0, hi | 1, hi => simp at hi; subst hi; cases hb
    | 2, hi =>
      simp at hi; subst hi
      simp [Obj.refs] at hb
      rcases hb with rfl | rfl <;> simp
    | i + 3, hi => simp at hi

/-- `Polygon2D.vertices()`: independent exactly if there are no vertices; the points themselves are shared. -/
theorem C95_polygon_partial {h : Heap K} {p vs : Addr} {l : List Addr} (hc : Closed h)
    (hp : h[p]? = some (.poly vs)) (hl : h[vs]? = some (.list l)) (hv : ∀ a ∈ l, ∃ v : Vec K, h[a]? = some (.vec v)) :
    Independent h p (h.polyVertices p) ↔ l = [] := by
  have hlt : p < h.length := (List.getElem?_eq_some_iff.mp hp).1
  have hres : h.polyVertices p = .ok (h.length, h ++ [.list l]) := by
    simp [Heap.polyVertices, Heap.poly_ok.mpr hp, Heap.listCopy, Heap.list_ok.mpr hl, Heap.alloc, bind, Except.bind]
  rw [hres]
  constructor
  · intro hi
    by_contra hne
    obtain ⟨a, ha⟩ := List.exists_mem_of_ne_nil l hne
    obtain ⟨v, hva⟩ := hv a ha
    have hla : a < h.length := (List.getElem?_eq_some_iff.mp hva).1
    have hk : a ∈ known (h ++ [.list l]) {h.length} :=
      ⟨h.length, rfl, .tail (.refl _) (o := .list l) (by simp) ha⟩
    have := hi h.length _ rfl ((h ++ [Obj.list l]).set a (.list [])) (.write a (.list []) hk (by simp [Obj.refs]) (.done _ _))
      a (.tail (.tail (.refl _) hp (by simp [Obj.refs])) hl ha)
    rw [hva] at this
    simp [Nat.lt_succ_of_lt hla] at this
  · rintro rfl
    exact independent_leaf hc hlt _ rfl

/-- Moving a point obtained through `vertices()` moves the vertex of the polygon: for every polygon and every vertex. -/
theorem C95_polygon_refuted {h : Heap K} {p vs a : Addr} {l : List Addr} {v : Vec K}
    (hp : h[p]? = some (.poly vs)) (hl : h[vs]? = some (.list l)) (ha : a ∈ l) (hva : h[a]? = some (.vec v)) (x y : K) :
    ∃ r h1 h2, h.polyVertices p = .ok (r, h1) ∧ h1.list r = .ok l ∧ h1.vecAssign a x y = .ok (a, h2) ∧
      h2[p]? = some (.poly vs) ∧ h2[vs]? = some (.list l) ∧ h2[a]? = some (.vec (v.assign x y)) := by
  have hla : a < h.length := (List.getElem?_eq_some_iff.mp hva).1
  have hlp : p < h.length := (List.getElem?_eq_some_iff.mp hp).1
  have hlv : vs < h.length := (List.getElem?_eq_some_iff.mp hl).1
  have e : (h ++ [Obj.list l])[a]? = some (.vec v) := by rw [List.getElem?_append_left hla, hva]
  refine ⟨h.length, h ++ [.list l], (h ++ [Obj.list l]).set a (.vec (v.assign x y)), ?_, ?_, ?_, ?_, ?_, ?_⟩
  · simp [Heap.polyVertices, Heap.poly_ok.mpr hp, Heap.listCopy, Heap.list_ok.mpr hl, Heap.alloc, bind, Except.bind]
  · simp [Heap.list]
  · simp [Heap.vecAssign, Heap.vec_ok.mpr e, Heap.write, bind, Except.bind]
  · have : a ≠ p := by rintro rfl; rw [hp] at hva; cases hva
    rw [List.getElem?_set_ne this, List.getElem?_append_left hlp, hp]
  · have : a ≠ vs := by rintro rfl; rw [hl] at hva; cases hva
    rw [List.getElem?_set_ne this, List.getElem?_append_left hlv, hl]
  · simp [Nat.lt_succ_of_lt hla]

/-- The list returned by `vertices()` is a copy: whatever is done to the list object itself, the polygon keeps its list
of vertices. -/
theorem C95_polygon_list_partial {h : Heap K} {p vs : Addr} {l : List Addr} (hc : Closed h)
    (hp : h[p]? = some (.poly vs)) (hl : h[vs]? = some (.list l)) (l' : List Addr) :
    ∃ r h1, h.polyVertices p = .ok (r, h1) ∧ ∀ x, Reach h p x → (h1.write r (.list l'))[x]? = h[x]? := by
  have hlp : p < h.length := (List.getElem?_eq_some_iff.mp hp).1
  refine ⟨h.length, h ++ [.list l], ?_, ?_⟩
  · simp [Heap.polyVertices, Heap.poly_ok.mpr hp, Heap.listCopy, Heap.list_ok.mpr hl, Heap.alloc, bind, Except.bind]
  · intro x hx
    have hxl := hx.lt hc hlp
    rw [Heap.write, List.getElem?_set_ne (Nat.ne_of_gt hxl), List.getElem?_append_left hxl]

/-- `ConvexHull.input_points()`, `vertices()`, `edges()`: the list is new, its elements are shared, so the result is
independent exactly if the list is empty. -/
theorem C95_hull_partial {h : Heap K} {c i v e : Addr} {li lv le : List Addr} (hc : Closed h)
    (hh : h[c]? = some (.hull i v e)) (hi : h[i]? = some (.list li)) (hv : h[v]? = some (.list lv))
    (he : h[e]? = some (.list le)) (hpt : ∀ a ∈ li ++ lv, ∃ p : Vec K, h[a]? = some (.vec p))
    (hsg : ∀ a ∈ le, ∃ o t, h[a]? = some (.seg o t)) :
    (Independent h c (h.hullInput c) ↔ li = []) ∧ (Independent h c (h.hullVertices c) ↔ lv = []) ∧
      (Independent h c (h.hullEdges c) ↔ le = []) := by
  have hlt : c < h.length := (List.getElem?_eq_some_iff.mp hh).1
  have key : ∀ (b : Addr) (l : List Addr), b ∈ (Obj.hull i v e : Obj K).refs → h[b]? = some (.list l) →
      (∀ a ∈ l, ∃ o : Obj K, h[a]? = some o ∧ ∀ l', o ≠ .list l') →
      (Independent h c (h.listCopy b) ↔ l = []) := by
    intro b l hb hl ho
    have hres : h.listCopy b = .ok (h.length, h ++ [.list l]) := by
      simp [Heap.listCopy, Heap.list_ok.mpr hl, Heap.alloc, bind, Except.bind]
    rw [hres]
    constructor
    · intro hind
      by_contra hne
      obtain ⟨a, ha⟩ := List.exists_mem_of_ne_nil l hne
      obtain ⟨o, hoa, hol⟩ := ho a ha
      have hla : a < h.length := (List.getElem?_eq_some_iff.mp hoa).1
      have hk : a ∈ known (h ++ [.list l]) {h.length} :=
        ⟨h.length, rfl, .tail (.refl _) (o := .list l) (by simp) ha⟩
      have := hind h.length _ rfl ((h ++ [Obj.list l]).set a (.list []))
        (.write a (.list []) hk (by simp [Obj.refs]) (.done _ _)) a (.tail (.tail (.refl _) hh hb) hl ha)
      rw [hoa] at this
      simp [Nat.lt_succ_of_lt hla] at this
      exact hol _ this.symm
    · rintro rfl
      exact independent_leaf hc hlt _ rfl
  have hvec : ∀ (l : List Addr), (∀ a ∈ l, a ∈ li ++ lv) →
      ∀ a ∈ l, ∃ o : Obj K, h[a]? = some o ∧ ∀ l', o ≠ .list l' := by
    intro l hsub a ha
    obtain ⟨p, hp⟩ := hpt a (hsub a ha)
    exact ⟨_, hp, by simp⟩
  refine ⟨?_, ?_, ?_⟩
  · have := key i li (by simp [Obj.refs]) hi (hvec li (by simp +contextual))
    simpa [Heap.hullInput, Heap.hull_ok.mpr hh, bind, Except.bind] using this
  · have := key v lv (by simp [Obj.refs]) hv (hvec lv (by simp +contextual))
    simpa [Heap.hullVertices, Heap.hull_ok.mpr hh, bind, Except.bind] using this
  · have := key e le (by simp [Obj.refs]) he (by
      intro a ha
      obtain ⟨o, t, hp⟩ := hsg a ha
      exact ⟨_, hp, by simp⟩)
    simpa [Heap.hullEdges, Heap.hull_ok.mpr hh, bind, Except.bind] using this

/-- `Rect2D(p, size)` keeps the caller's size object: resizing either one resizes the other, for every heap. -/
theorem C95_rect_constructor_refuted {h : Heap K} {p s : Addr} {v : Vec K} {sz : Size K}
    (hp : h[p]? = some (.vec v)) (hs : h[s]? = some (.size sz)) (l w : K) :
    ∃ r h1 h2 h3, h.newRectSize p s = .ok (r, h1) ∧ h1.rectVal r = .ok ⟨Vec.ofVec v, sz⟩ ∧
      h1.sizeAssign s l w = .ok (s, h2) ∧ h2.rectVal r = .ok ⟨Vec.ofVec v, Size.ofLW l w⟩ ∧
      h1.rectSetLength r l = .ok h3 ∧ h3.size s = .ok (sz.setLength l) := by
  have hlp : p < h.length := (List.getElem?_eq_some_iff.mp hp).1
  have hls : s < h.length := (List.getElem?_eq_some_iff.mp hs).1
  have n1 : s ≠ h.length := Nat.ne_of_lt hls
  have n2 : s ≠ h.length + 1 := Nat.ne_of_lt (Nat.lt_succ_of_lt hls)
  have g1 : (h ++ [Obj.vec (Vec.ofVec v), .rect h.length s])[h.length + 1]? = some (.rect h.length s) := by
    rw [List.getElem?_append_right (by omega)]; simp
  have g2 : (h ++ [Obj.vec (Vec.ofVec v), .rect h.length s])[h.length]? = some (.vec (Vec.ofVec v)) := by
    rw [List.getElem?_append_right (by omega)]; simp
  have g3 : (h ++ [Obj.vec (Vec.ofVec v), .rect h.length s])[s]? = some (.size sz) := by
    rw [List.getElem?_append_left hls, hs]
  have g4 : ∀ o, ((h ++ [Obj.vec (Vec.ofVec v), .rect h.length s]).set s o)[s]? = some o := by
    intro o
    rw [List.getElem?_set_self]
    rw [List.length_append]; exact Nat.lt_add_right _ hls
  refine ⟨h.length + 1, h ++ [.vec (Vec.ofVec v), .rect h.length s],
    (h ++ [Obj.vec (Vec.ofVec v), .rect h.length s]).set s (.size (Size.ofLW l w)),
    (h ++ [Obj.vec (Vec.ofVec v), .rect h.length s]).set s (.size (sz.setLength l)), ?_, ?_, ?_, ?_, ?_, ?_⟩
  · simp [Heap.newRectSize, Heap.newVecCopy, Heap.vec_ok.mpr hp, Heap.alloc, bind, Except.bind]
  · simp [Heap.rectVal, Heap.rect_ok.mpr g1, Heap.vec_ok.mpr g2, Heap.size_ok.mpr g3, bind, Except.bind]
  · simp [Heap.sizeAssign, Heap.size_ok.mpr g3, Heap.write, bind, Except.bind]
  · have k1 := Heap.rect_ok.mpr ((List.getElem?_set_ne (a := Obj.size (Size.ofLW l w)) n2).trans g1)
    have k2 := Heap.vec_ok.mpr ((List.getElem?_set_ne (a := Obj.size (Size.ofLW l w)) n1).trans g2)
    have k3 := Heap.size_ok.mpr (g4 (.size (Size.ofLW l w)))
    simp [Heap.rectVal, k1, k2, k3, bind, Except.bind]
  · simp [Heap.rectSetLength, Heap.rect_ok.mpr g1, Heap.size_ok.mpr g3, Heap.write, bind, Except.bind]
  · exact Heap.size_ok.mpr (g4 _)

/-- `ConvexHull(points)` keeps the caller's list: `clear()` empties it, and appending to it adds input points. -/
theorem C95_hull_constructor_refuted {h : Heap K} {l x : Addr} {pts : List Addr} (hl : h[l]? = some (.list pts)) :
    ∃ c h1 h2 h3, h.newHull l = .ok (c, h1) ∧ h1.hullClear c = .ok h2 ∧ h2.list l = .ok [] ∧
      h1.listAppend l x = .ok h3 ∧ h3.hull c = .ok (l, h.length, h.length + 1) ∧ h3.list l = .ok (pts ++ [x]) := by
  have hll : l < h.length := (List.getElem?_eq_some_iff.mp hl).1
  set h1 : Heap K := h ++ [.list [], .list [], .hull l h.length (h.length + 1)] with hh1
  have g1 : h1[h.length + 2]? = some (.hull l h.length (h.length + 1)) := by
    rw [hh1, List.getElem?_append_right (by omega)]; simp
  have g2 : h1[h.length]? = some (.list []) := by rw [hh1, List.getElem?_append_right (by omega)]; simp
  have g3 : h1[h.length + 1]? = some (.list []) := by rw [hh1, List.getElem?_append_right (by omega)]; simp
  have g4 : h1[l]? = some (.list pts) := by rw [hh1, List.getElem?_append_left hll, hl]
  have hlen : h1.length = h.length + 3 := by simp [hh1]
  clear_value h1
  have n1 : h.length ≠ l := Nat.ne_of_gt hll
  have n2 : h.length + 1 ≠ l := Nat.ne_of_gt (Nat.lt_succ_of_lt hll)
  have n3 : l ≠ h.length + 2 := Nat.ne_of_lt (Nat.lt_add_right _ hll)
  have k1 : (h1.set h.length (.list []))[h.length + 1]? = some (.list []) := by
    rw [List.getElem?_set_ne (by simp), g3]
  have k2 : ((h1.set h.length (.list [])).set (h.length + 1) (.list []))[l]? = some (.list pts) := by
    rw [List.getElem?_set_ne n2, List.getElem?_set_ne n1, g4]
  refine ⟨h.length + 2, h1,
    ((h1.set h.length (.list [])).set (h.length + 1) (.list [])).set l (.list []), h1.set l (.list (pts ++ [x])),
    ?_, ?_, ?_, ?_, ?_, ?_⟩
  · simp [Heap.newHull, Heap.alloc, hh1]
  · simp [Heap.hullClear, Heap.hull_ok.mpr g1, Heap.listClear, Heap.list_ok.mpr g2, Heap.list_ok.mpr k1,
      Heap.list_ok.mpr k2, Heap.write, bind, Except.bind]
  · refine Heap.list_ok.mpr ?_
    rw [List.getElem?_set_self]
    simp only [List.length_set, hlen]
    exact Nat.lt_add_right _ hll
  · simp [Heap.listAppend, Heap.list_ok.mpr g4, Heap.write, bind, Except.bind]
  · exact Heap.hull_ok.mpr ((List.getElem?_set_ne n3).trans g1)
  · refine Heap.list_ok.mpr ?_
    rw [List.getElem?_set_self]
    rw [hlen]
    exact Nat.lt_add_right _ hll

/-- `Rect2D(r)` for a rectangle consists of new objects. -/
theorem C95_rect_copy_partial {h : Heap K} {r p s : Addr} {v : Vec K} {sz : Size K} (hc : Closed h)
    (hr : h[r]? = some (.rect p s)) (hp : h[p]? = some (.vec v)) (hs : h[s]? = some (.size sz)) :
    Independent h r (h.newRectCopy r) := by
  have hlr : r < h.length := (List.getElem?_eq_some_iff.mp hr).1
  have hls : s < h.length := (List.getElem?_eq_some_iff.mp hs).1
  have e1 : (h ++ [Obj.vec (Vec.ofVec v)])[s]? = some (.size sz) := by rw [List.getElem?_append_left hls, hs]
  have : ∃ sz' : Size K, h.newRectCopy r = .ok (h.length + 2, h ++ [.vec (Vec.ofVec v), .size sz',
      .rect h.length (h.length + 1)]) := by
    simp [Heap.newRectCopy, Heap.rect_ok.mpr hr, Heap.newVecCopy, Heap.newSizeCopy, Heap.vec_ok.mpr hp,
      Heap.size_ok.mpr e1, Heap.alloc, bind, Except.bind]
  obtain ⟨sz', this⟩ := this
  rw [this]
  refine independent_of_fresh hc hlr (by omega) (by simp) ?_
  intro i o' hi b hb
  match i, hi with
  | 0, hi | 1, hi => simp at hi; subst hi; cases hb
  | 2, hi =>
    simp at hi; subst hi
    simp [Obj.refs] at hb
    rcases hb with rfl | rfl <;> simp
  | i + 3, hi => simp at hi

/-- `Polygon2D(points)` keeps the caller's points: moving one of them afterwards moves the vertex of the polygon. Appending
to the caller's list does not add a vertex. -/
theorem C95_polygon_constructor_refuted {h : Heap K} {l a : Addr} {pts : List Addr} {v : Vec K}
    (hl : h[l]? = some (.list pts)) (ha : a ∈ pts) (hv : h[a]? = some (.vec v)) (x y : K) (b : Addr) :
    ∃ r h1 h2 h3, h.newPoly l = .ok (r, h1) ∧ h1.vecAssign a x y = .ok (a, h2) ∧
      Reach h2 r a ∧ h2.vec a = .ok (v.assign x y) ∧
      h1.listAppend l b = .ok h3 ∧ h3.poly r = .ok h.length ∧ h3.list h.length = .ok pts := by
  have hll : l < h.length := (List.getElem?_eq_some_iff.mp hl).1
  have hla : a < h.length := (List.getElem?_eq_some_iff.mp hv).1
  set h1 : Heap K := h ++ [.list pts, .poly h.length] with hh1
  have g1 : h1[h.length + 1]? = some (.poly h.length) := by
    rw [hh1, List.getElem?_append_right (by omega)]; simp
  have g2 : h1[h.length]? = some (.list pts) := by rw [hh1, List.getElem?_append_right (by omega)]; simp
  have g3 : h1[l]? = some (.list pts) := by rw [hh1, List.getElem?_append_left hll, hl]
  have g4 : h1[a]? = some (.vec v) := by rw [hh1, List.getElem?_append_left hla, hv]
  have hlen : h1.length = h.length + 2 := by simp [hh1]
  have n1 : a ≠ h.length := Nat.ne_of_lt hla
  have n2 : a ≠ h.length + 1 := Nat.ne_of_lt (Nat.lt_succ_of_lt hla)
  have n3 : l ≠ h.length := Nat.ne_of_lt hll
  have n4 : l ≠ h.length + 1 := Nat.ne_of_lt (Nat.lt_succ_of_lt hll)
  refine ⟨h.length + 1, h1, h1.set a (.vec (v.assign x y)), h1.set l (.list (pts ++ [b])), ?_, ?_, ?_, ?_, ?_, ?_, ?_⟩
  · simp [Heap.newPoly, Heap.listCopy, Heap.list_ok.mpr hl, Heap.alloc, hh1, bind, Except.bind]
  · simp [Heap.vecAssign, Heap.vec_ok.mpr g4, Heap.write, bind, Except.bind]
  · refine .tail (.tail (.refl _) ((List.getElem?_set_ne n2).trans g1) (b := h.length + 1) (c := h.length)
      (by simp [Obj.refs])) ((List.getElem?_set_ne n1).trans g2) ha
  · refine Heap.vec_ok.mpr ?_
    rw [List.getElem?_set_self]
    rw [hlen]; exact Nat.lt_add_right _ hla
  · simp [Heap.listAppend, Heap.list_ok.mpr g3, Heap.write, bind, Except.bind]
  · exact Heap.poly_ok.mpr ((List.getElem?_set_ne n4).trans g1)
  · exact Heap.list_ok.mpr ((List.getElem?_set_ne n3).trans g2)

/-- `r.intersected(o)` returns `r` itself. -/
theorem C95_intersected_refuted {h h1 : Heap K} {r o a : Addr} (he : h.rectIntersected r o = .ok (a, h1)) : a = r := by
  unfold Heap.rectIntersected at he
  simp only [bind, Except.bind] at he
  repeat' split at he
  all_goals first | cases he; rfl | cases he

/-- Every object made by `Segment2D.origin()` etc. exists: the theorems above are not about a failing call. -/
theorem C95_calls_succeed {h : Heap K} {s o t : Addr} {v w : Vec K} (hs : h[s]? = some (.seg o t))
    (ho : h[o]? = some (.vec v)) (ht : h[t]? = some (.vec w)) :
    (∃ x, h.segCopy s = .ok x) ∧ (∃ x, h.segReversed s = .ok x) ∧ h.segReversed s ≠ h.segCopy s := by
  have hlt : s < h.length := (List.getElem?_eq_some_iff.mp hs).1
  have hlt' : t < h.length := (List.getElem?_eq_some_iff.mp ht).1
  have e1 : (h ++ [Obj.vec (Vec.ofVec v)])[s]? = some (.seg o t) := by rw [List.getElem?_append_left hlt, hs]
  have e2 : (h ++ [Obj.vec (Vec.ofVec v)])[t]? = some (.vec w) := by rw [List.getElem?_append_left hlt', ht]
  have e3 : (h ++ [Obj.vec (Vec.ofVec v), .vec (Vec.ofVec w)])[h.length]? = some (.vec (Vec.ofVec v)) := by
    rw [List.getElem?_append_right (by omega)]; simp
  have e4 : (h ++ [Obj.vec (Vec.ofVec v), .vec (Vec.ofVec w), .vec (Vec.ofVec (Vec.ofVec v))])[h.length + 1]? =
      some (.vec (Vec.ofVec w)) := by
    rw [List.getElem?_append_right (by omega)]; simp
  have e5 : (h ++ [Obj.vec (Vec.ofVec v), .vec (Vec.ofVec w), .seg h.length (h.length + 1)])[h.length + 2]? =
      some (.seg h.length (h.length + 1)) := by
    rw [List.getElem?_append_right (by omega)]; simp
  refine ⟨?_, ?_, ?_⟩ <;>
  simp [Heap.segCopy, Heap.segReversed, Heap.segSwap, Heap.segOrigin, Heap.segTerminal, Heap.newSeg, Heap.newVecCopy,
    Heap.alloc, Heap.write, Heap.seg_ok.mpr hs, Heap.vec_ok.mpr ho, Heap.seg_ok.mpr e1, Heap.vec_ok.mpr e2,
    Heap.vec_ok.mpr e3, Heap.vec_ok.mpr e4, Heap.seg_ok.mpr e5, bind, Except.bind]

/-- **C13** (receiver) `rotated_vector(d)` changes no existing object, and its result is a new object with the value that
`rotate(d)` would leave in a (valid) receiver. -/
theorem C13_receiver_unchanged {h : Heap K} {p : Addr} {v : Vec K} (hp : h[p]? = some (.vec v)) (deg : K) :
    ∃ h1 h2, h.vecRotated p deg = .ok (h.length, h1) ∧ (∀ x, x < h.length → h1[x]? = h[x]?) ∧
      h1.vec h.length = .ok (v.rotatedVector deg) ∧
      h.vecRotate p deg = .ok (p, h2) ∧ h2.vec p = .ok (v.rotate deg) ∧
      (v.rotatedVector deg).x = (v.rotate deg).x ∧ (v.rotatedVector deg).y = (v.rotate deg).y := by
  have hlp : p < h.length := (List.getElem?_eq_some_iff.mp hp).1
  have g : (h ++ [Obj.vec (Vec.ofXY v.x v.y)])[h.length]? = some (.vec (Vec.ofXY v.x v.y)) := by simp
  refine ⟨h ++ [.vec (v.rotatedVector deg)], h.set p (.vec (v.rotate deg)), ?_, ?_, ?_, ?_, ?_, rfl, rfl⟩
  · simp [Heap.vecRotated, Heap.vec_ok.mpr hp, Heap.alloc, Heap.vecRotate, Heap.vec_ok.mpr g, Heap.vecAssign,
      Heap.write, bind, Except.bind, Vec.rotatedVector, Vec.rotate]
  · exact fun x hx => List.getElem?_append_left hx
  · exact Heap.vec_ok.mpr (by simp)
  · simp [Heap.vecRotate, Heap.vec_ok.mpr hp, Heap.vecAssign, Heap.write, bind, Except.bind, Vec.rotate]
  · exact Heap.vec_ok.mpr (by simp [hlp])

/-- **C39** (receiver) `reversed_segment()` changes no existing object; its result is a new segment with the end points
exchanged. -/
theorem C39_receiver_unchanged {h : Heap K} {s o t : Addr} {v w : Vec K} (hs : h[s]? = some (.seg o t))
    (ho : h[o]? = some (.vec v)) (ht : h[t]? = some (.vec w)) :
    ∃ h1 o' t', h.segReversed s = .ok (h.length + 2, h1) ∧ (∀ x, x < h.length → h1[x]? = h[x]?) ∧
      h1.seg (h.length + 2) = .ok (o', t') ∧ h1.vec o' = .ok (Vec.ofVec w) ∧ h1.vec t' = .ok (Vec.ofVec v) := by
  have hlt' : t < h.length := (List.getElem?_eq_some_iff.mp ht).1
  have e2 : (h ++ [Obj.vec (Vec.ofVec v)])[t]? = some (.vec w) := by rw [List.getElem?_append_left hlt', ht]
  have e3 : (h ++ [Obj.vec (Vec.ofVec v), .vec (Vec.ofVec w), .seg h.length (h.length + 1)])[h.length + 2]? =
      some (.seg h.length (h.length + 1)) := by
    rw [List.getElem?_append_right (by omega)]; simp
  refine ⟨h ++ [.vec (Vec.ofVec v), .vec (Vec.ofVec w), .seg (h.length + 1) h.length], h.length + 1, h.length, ?_, ?_,
    ?_, ?_, ?_⟩
  · simp [Heap.segReversed, Heap.newSeg, Heap.newVecCopy, Heap.alloc, Heap.segSwap, Heap.write,
      Heap.seg_ok.mpr hs, Heap.vec_ok.mpr ho, Heap.vec_ok.mpr e2, Heap.seg_ok.mpr e3, bind, Except.bind]
  · exact fun x hx => List.getElem?_append_left hx
  · refine Heap.seg_ok.mpr ?_
    rw [List.getElem?_append_right (by omega)]; simp
  · refine Heap.vec_ok.mpr ?_
    rw [List.getElem?_append_right (by omega)]; simp
  · refine Heap.vec_ok.mpr ?_
    rw [List.getElem?_append_right (by omega)]; simp

end

/-! ## `nearest_point`, `projection` and `intersected` -/

/-- `Segment2D.nearest_point(p)` is independent exactly if the foot of the perpendicular is strictly inside the
segment; otherwise the end point object itself is returned. -/
theorem C95_nearest_partial {h : Heap ℝ} {s p o t : Addr} {ov tv pv : Vec ℝ} (hc : Closed h)
    (hs : h[s]? = some (.seg o t)) (ho : h[o]? = some (.vec ov)) (ht : h[t]? = some (.vec tv))
    (hp : h[p]? = some (.vec pv)) :
    Independent h s (h.segNearest s p) ↔
      0 < (tv.x - ov.x) * (pv.x - ov.x) + (tv.y - ov.y) * (pv.y - ov.y) ∧
      (tv.x - ov.x) * (pv.x - ov.x) + (tv.y - ov.y) * (pv.y - ov.y) < (tv.x - ov.x) ^ 2 + (tv.y - ov.y) ^ 2 := by
  have hlt : s < h.length := (List.getElem?_eq_some_iff.mp hs).1
  have hro : Reach h s o := .tail (.refl _) hs (by simp [Obj.refs])
  have hrt : Reach h s t := .tail (.refl _) hs (by simp [Obj.refs])
  have hnot : ∀ (a : Addr) (v : Vec ℝ), h[a]? = some (.vec v) → Reach h s a → ¬ Independent h s (.ok (a, h)) := by
    intro a v ha hr
    exact not_independent_of_alias hr ha (o' := .list []) (by simp) (by simp [Obj.refs])
  set A := (tv.x - ov.x) * (pv.x - ov.x) + (tv.y - ov.y) * (pv.y - ov.y) with hA
  set B := (tv.x - ov.x) ^ 2 + (tv.y - ov.y) ^ 2 with hB
  have hB' : (tv.sub ov).r2 = B := by simp [Vec.r2, Vec.sub, Vec.ofXY, hB]; ring
  have hA' : (tv.sub ov).innerProduct (pv.sub ov) = A := by
    simp [Vec.innerProduct, Vec.sub, Vec.ofXY, hA]
  simp only [Heap.segNearest, Heap.seg_ok.mpr hs, Heap.vec_ok.mpr ho, Heap.vec_ok.mpr ht, Heap.vec_ok.mpr hp, bind,
    Except.bind, hB', hA', num_real, Nat.cast_zero, beq_iff_eq]
  by_cases h0 : B = 0
  · simp only [h0, if_true]
    have : ¬ (0 < A ∧ A < 0) := fun h => absurd (h.1.trans h.2) (lt_irrefl _)
    simp only [this, iff_false]
    exact hnot o ov ho hro
  · simp only [h0, if_false]
    by_cases h1 : A ≤ 0
    · simp only [h1, if_true]
      have : ¬ (0 < A ∧ A < B) := fun h => absurd h.1 (not_lt.mpr h1)
      simp only [this, iff_false]
      exact hnot o ov ho hro
    · simp only [h1, if_false]
      by_cases h2 : B ≤ A
      · simp only [h2, if_true]
        have : ¬ (0 < A ∧ A < B) := fun h => absurd h.2 (not_lt.mpr h2)
        simp only [this, iff_false]
        exact hnot t tv ht hrt
      · simp only [h2, if_false]
        simp only [not_le.mp h1, not_le.mp h2, and_self, iff_true]
        exact independent_leaf hc hlt _ rfl

/-- The value behind the returned reference is the one of the value model. -/
theorem C95_nearest_value {h : Heap ℝ} {s p o t : Addr} {ov tv pv : Vec ℝ}
    (hs : h[s]? = some (.seg o t)) (ho : h[o]? = some (.vec ov)) (ht : h[t]? = some (.vec tv))
    (hp : h[p]? = some (.vec pv)) :
    ∃ r h1, h.segNearest s p = .ok (r, h1) ∧ h1.vec r = .ok (Seg.nearestPoint ⟨ov, tv⟩ pv) := by
  simp only [Heap.segNearest, Heap.seg_ok.mpr hs, Heap.vec_ok.mpr ho, Heap.vec_ok.mpr ht, Heap.vec_ok.mpr hp, bind,
    Except.bind, Seg.nearestPoint]
  split
  · exact ⟨o, h, rfl, Heap.vec_ok.mpr ho⟩
  · split
    · exact ⟨o, h, rfl, Heap.vec_ok.mpr ho⟩
    · split
      · exact ⟨t, h, rfl, Heap.vec_ok.mpr ht⟩
      · exact ⟨_, _, rfl, Heap.vec_ok.mpr (by simp)⟩

/-- The witness for the claim as stated: mutating the nearest point moves the segment. -/
theorem C95_nearest_refuted {h : Heap ℝ} {s p o t : Addr} {ov tv pv : Vec ℝ}
    (hs : h[s]? = some (.seg o t)) (ho : h[o]? = some (.vec ov)) (ht : h[t]? = some (.vec tv))
    (hp : h[p]? = some (.vec pv))
    (hside : (tv.x - ov.x) * (pv.x - ov.x) + (tv.y - ov.y) * (pv.y - ov.y) ≤ 0) (x y : ℝ) :
    ∃ h2, h.segNearest s p = .ok (o, h) ∧ h.vecAssign o x y = .ok (o, h2) ∧
      h2[s]? = some (.seg o t) ∧ h2[o]? = some (.vec (ov.assign x y)) := by
  have hlo : o < h.length := (List.getElem?_eq_some_iff.mp ho).1
  refine ⟨h.set o (.vec (ov.assign x y)), ?_, ?_, ?_, by simp [hlo]⟩
  · have hA' : (tv.sub ov).innerProduct (pv.sub ov) ≤ 0 := by
      simpa [Vec.innerProduct, Vec.sub, Vec.ofXY] using hside
    simp only [Heap.segNearest, Heap.seg_ok.mpr hs, Heap.vec_ok.mpr ho, Heap.vec_ok.mpr ht, Heap.vec_ok.mpr hp, bind,
      Except.bind, num_real, Nat.cast_zero, hA', if_true]
    split <;> rfl
  · simp [Heap.vecAssign, Heap.vec_ok.mpr ho, Heap.write, bind, Except.bind]
  · have : o ≠ s := by rintro rfl; rw [hs] at ho; cases ho
    rw [List.getElem?_set_ne this, hs]

/-- `Segment2D.projection(p)` is independent exactly if the segment is at least `EPSILON` long; otherwise the origin
object itself is returned. -/
theorem C95_projection_partial {h : Heap ℝ} {s p o t : Addr} {ov tv pv : Vec ℝ} (hc : Closed h)
    (hs : h[s]? = some (.seg o t)) (ho : h[o]? = some (.vec ov)) (ht : h[t]? = some (.vec tv))
    (hp : h[p]? = some (.vec pv)) :
    Independent h s (h.segProjection s p) ↔ EPSILON ≤ Spec.d (tv.x, tv.y) (ov.x, ov.y) := by
  have hlt : s < h.length := (List.getElem?_eq_some_iff.mp hs).1
  have hr : (tv.sub ov).r = Spec.d (tv.x, tv.y) (ov.x, ov.y) := by
    rw [Vec.r_real]; simp [Vec.sub, Vec.ofXY, Spec.d, Spec.len]
  simp only [Heap.segProjection, Heap.seg_ok.mpr hs, Heap.vec_ok.mpr ho, Heap.vec_ok.mpr ht, Heap.vec_ok.mpr hp, bind,
    Except.bind, hr]
  by_cases h0 : Spec.d (tv.x, tv.y) (ov.x, ov.y) < EPSILON
  · simp only [h0, if_true, not_le.mpr h0, iff_false]
    exact not_independent_of_alias (.tail (.refl _) hs (by simp [Obj.refs])) ho (o' := .list []) (by simp)
      (by simp [Obj.refs])
  · simp only [h0, if_false, not_lt.mp h0, iff_true]
    exact independent_leaf hc hlt _ rfl

/-- Mutating the result of `projection` on a segment shorter than `EPSILON` moves the segment. -/
theorem C95_projection_refuted {h : Heap ℝ} {s p o t : Addr} {ov tv : Vec ℝ}
    (hs : h[s]? = some (.seg o t)) (ho : h[o]? = some (.vec ov)) (ht : h[t]? = some (.vec tv))
    (hshort : Spec.d (tv.x, tv.y) (ov.x, ov.y) < EPSILON) (x y : ℝ) :
    ∃ h2, h.segProjection s p = .ok (o, h) ∧ h.vecAssign o x y = .ok (o, h2) ∧
      h2[s]? = some (.seg o t) ∧ h2[o]? = some (.vec (ov.assign x y)) := by
  have hlo : o < h.length := (List.getElem?_eq_some_iff.mp ho).1
  have hr : (tv.sub ov).r = Spec.d (tv.x, tv.y) (ov.x, ov.y) := by
    rw [Vec.r_real]; simp [Vec.sub, Vec.ofXY, Spec.d, Spec.len]
  refine ⟨h.set o (.vec (ov.assign x y)), ?_, ?_, ?_, by simp [hlo]⟩
  · simp only [Heap.segProjection, Heap.seg_ok.mpr hs, Heap.vec_ok.mpr ho, Heap.vec_ok.mpr ht, bind, Except.bind, hr,
      hshort, if_true]
  · simp [Heap.vecAssign, Heap.vec_ok.mpr ho, Heap.write, bind, Except.bind]
  · have : o ≠ s := by rintro rfl; rw [hs] at ho; cases ho
    rw [List.getElem?_set_ne this, hs]

/-- A segment from (0,0) to (2,0), a point above its middle and one to the left: for the first the nearest point is a new
object, for the second it is the origin object of the segment. -/
noncomputable def exHeap : Heap ℝ :=
  [.vec ⟨0, 0, true⟩, .vec ⟨2, 0, true⟩, .seg 0 1, .vec ⟨1, 1, true⟩, .vec ⟨-1, 1, true⟩]

theorem exHeap_closed : Closed exHeap := by
  intro a o ha b hb
  match a, ha with
  | 0, ha | 1, ha | 3, ha | 4, ha => simp [exHeap] at ha; subst ha; cases hb
  | 2, ha =>
    simp [exHeap] at ha; subst ha
    simp [Obj.refs] at hb
    rcases hb with rfl | rfl <;> simp [exHeap]
  | a + 5, ha => simp [exHeap] at ha

example : Independent exHeap 2 (exHeap.segNearest 2 3) ∧ ¬ Independent exHeap 2 (exHeap.segNearest 2 4) := by
  constructor
  · rw [C95_nearest_partial exHeap_closed (o := 0) (t := 1) rfl rfl rfl rfl]; norm_num
  · rw [C95_nearest_partial exHeap_closed (o := 0) (t := 1) rfl rfl rfl rfl]; norm_num

example : Independent exHeap 2 (exHeap.segOrigin 2) ∧ exHeap.segOrigin 2 = .ok (5, exHeap ++ [.vec ⟨0, 0, true⟩]) :=
  ⟨(C95_segment_partial exHeap_closed (by simp [exHeap])).1, by
    simp [Heap.segOrigin, Heap.seg, Heap.newVecCopy, Heap.vec, Heap.alloc, exHeap, Vec.ofVec, bind, Except.bind]⟩

/-- The claim as stated fails: after `q = seg.nearest_point(p); q.assign(7, 7)` the segment starts at (7,7). -/
theorem C95_refuted : ∃ (h h1 h2 : Heap ℝ) (s p q o t : Addr), h.segNearest s p = .ok (q, h1) ∧
    h1.vecAssign q 7 7 = .ok (q, h2) ∧ h.seg s = .ok (o, t) ∧ h.vec o = .ok ⟨0, 0, true⟩ ∧
    h2.seg s = .ok (o, t) ∧ h2.vec o = .ok ⟨7, 7, true⟩ := by
  obtain ⟨h2, e1, e2, e3, e4⟩ := C95_nearest_refuted (h := exHeap) (s := 2) (p := 4) (o := 0) (t := 1)
    (ov := ⟨0, 0, true⟩) (tv := ⟨2, 0, true⟩) (pv := ⟨-1, 1, true⟩) rfl rfl rfl rfl (by norm_num) 7 7
  exact ⟨exHeap, exHeap, h2, 2, 4, 0, 0, 1, e1, e2, rfl, rfl, Heap.seg_ok.mpr e3, Heap.vec_ok.mpr e4⟩

/-! ## C67: matrix product -/

/-- `A * B` stores the product in `A` and returns `A`, whatever the heap. -/
theorem C67_refuted {h : Heap ℝ} {a b : Addr} {A B : Mat ℝ} (ha : h[a]? = some (.mat A)) (hb : h[b]? = some (.mat B)) :
    ∃ h1, h.matMul a b = .ok (a, h1) ∧ h1[a]? = some (.mat (A.mul B)) ∧
      (A.mul B ≠ A → h1[a]? ≠ h[a]?) := by
  have hla : a < h.length := (List.getElem?_eq_some_iff.mp ha).1
  refine ⟨h.set a (.mat (A.mul B)), ?_, by simp [hla], ?_⟩
  · simp [Heap.matMul, Heap.matImul, Heap.mat_ok.mpr ha, Heap.mat_ok.mpr hb, Heap.write, bind, Except.bind]
  · intro hne
    rw [ha]
    simp [hla, hne]

/-- A concrete case: a shift by (1,0) times itself changes the operand. -/
theorem C67_refuted_example :
    ∃ (h h1 : Heap ℝ) (r : Addr), h.matMul 0 0 = .ok (r, h1) ∧ h1[0]? ≠ h[0]? := by
  obtain ⟨h1, e1, -, e3⟩ := C67_refuted (h := [.mat ⟨1, 0, 0, 1, 1, 0⟩]) (a := 0) (b := 0) rfl rfl
  refine ⟨_, h1, 0, e1, e3 ?_⟩
  simp [Mat.mul]

/-- What remains: every other object, in particular `B` if it is not `A`, is unchanged; and nothing changes at all
exactly if the product equals `A`. -/
theorem C67_partial {h h1 : Heap ℝ} {a b r : Addr} {A B : Mat ℝ} (ha : h[a]? = some (.mat A))
    (hb : h[b]? = some (.mat B)) (hr : h.matMul a b = .ok (r, h1)) :
    (∀ x, x ≠ a → h1[x]? = h[x]?) ∧ (h1 = h ↔ A.mul B = A) := by
  have : h1 = h.set a (.mat (A.mul B)) := by
    simp [Heap.matMul, Heap.matImul, Heap.mat_ok.mpr ha, Heap.mat_ok.mpr hb, Heap.write, bind, Except.bind] at hr
    exact hr.2.symm
  subst this
  have hla : a < h.length := (List.getElem?_eq_some_iff.mp ha).1
  refine ⟨fun x hx => List.getElem?_set_ne (Ne.symm hx), ?_⟩
  constructor
  · intro he
    have : (h.set a (.mat (A.mul B)))[a]? = h[a]? := by rw [he]
    rw [ha] at this
    simpa [hla] using this
  · intro he
    rw [he]
    refine List.ext_getElem? fun i => ?_
    by_cases hi : i = a
    · subst hi; rw [ha]; simp [hla]
    · rw [List.getElem?_set_ne (Ne.symm hi)]

/-- Multiplying a matrix by a vector changes no object. -/
theorem C67_vector_partial {h h1 : Heap ℝ} {a v r : Addr} (hr : h.matMulVec a v = .ok (r, h1)) :
    ∀ x, x < h.length → h1[x]? = h[x]? := by
  unfold Heap.matMulVec at hr
  cases hm : h.mat a with
  | error e => simp [hm, bind, Except.bind] at hr
  | ok m =>
    cases hv : h.vec v with
    | error e => simp [hm, hv, bind, Except.bind] at hr
    | ok w =>
      simp [hm, hv, bind, Except.bind, Heap.alloc] at hr
      rw [← hr.2]
      intro x hx
      exact List.getElem?_append_left hx

end PyrusGeom
