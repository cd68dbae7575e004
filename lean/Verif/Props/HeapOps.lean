import Verif.Props.Heap

/-! # C146, C147: in-place operations, constructors and containers on the heap -/

namespace PyrusGeom

namespace Spec

/-- The call works in place on the object `p`: it returns `p` and changes no other object. -/
def InPlace {K : Type} (h : Heap K) (p : Addr) (res : Except PyErr (Addr × Heap K)) : Prop :=
  ∀ r h', res = .ok (r, h') → r = p ∧ h'.length = h.length ∧ ∀ x, x ≠ p → h'[x]? = h[x]?

/-- The returned object cannot be changed by anybody who only holds references from before the call, whatever they are. -/
def Detached {K : Type} (h : Heap K) (res : Except PyErr (Addr × Heap K)) : Prop :=
  ∀ r h1, res = .ok (r, h1) → (∀ x, x < h.length → h1[x]? = h[x]?) ∧
    ∀ h2, Client {a | a < h.length} h1 h2 → ∀ x, Reach h1 r x → h2[x]? = h1[x]?

end Spec

open Spec

/-! ## C146 -/

section
variable {K : Type}

theorem inPlace_error {h : Heap K} {p : Addr} {e : PyErr} : InPlace h p (.error e) := by
  intro r h' he; cases he

theorem inPlace_set {h : Heap K} {p : Addr} (o : Obj K) : InPlace h p (.ok (p, h.set p o)) := by
  intro r h' he
  obtain ⟨rfl, rfl⟩ := Prod.mk.inj (Except.ok.inj he)
  exact ⟨rfl, by simp, fun x hx => List.getElem?_set_ne (Ne.symm hx)⟩

theorem detached_error {h : Heap K} {e : PyErr} : Detached h (.error e) := by
  intro r h' he; cases he

/-- A call that only creates objects, which refer only to each other, gives a detached object. -/
theorem detached_of_fresh {h ext : Heap K} {r : Addr} (hc : Closed h)
    (hr : h.length ≤ r) (hr' : r < h.length + ext.length)
    (hext : ∀ (i : ℕ) (o : Obj K), ext[i]? = some o → ∀ b ∈ o.refs, h.length ≤ b ∧ b < h.length + ext.length) :
    Detached h (.ok (r, h ++ ext)) := by
  intro r' h1 he
  obtain ⟨rfl, rfl⟩ := Prod.mk.inj (Except.ok.inj he)
  have hget : ∀ y, y < h.length → (h ++ ext)[y]? = h[y]? := fun y hy => List.getElem?_append_left hy
  refine ⟨hget, fun h2 hcl x hx => ?_⟩
  have hget' : ∀ y, h.length ≤ y → (h ++ ext)[y]? = ext[y - h.length]? := fun y hy => List.getElem?_append_right hy
  have hc' : Closed (h ++ ext) := by
    intro a o ha b hb
    rw [List.length_append]
    rcases lt_or_ge a h.length with hl | hl
    · rw [hget a hl] at ha
      exact Nat.lt_add_right _ (hc a o ha b hb)
    · rw [hget' a hl] at ha
      exact (hext _ o ha b hb).2
  have hnew : ∀ y, Reach (h ++ ext) r y → h.length ≤ y := by
    intro y hy
    induction hy with
    | refl => exact hr
    | tail _ ho hm ih =>
      rw [hget' _ ih] at ho
      exact (hext _ _ ho _ hm).1
  have hold : ∀ y, y ∈ known (h ++ ext) {a | a < h.length} → y < h.length := by
    rintro y ⟨a, ha, hy⟩
    induction hy with
    | refl => exact ha
    | tail _ ho hm ih =>
      rw [hget _ ih] at ho
      exact hc _ _ ho _ hm
  refine hcl.frame hc' (by rw [List.length_append]; exact hr') ?_ ?_ x hx
  · intro a ha
    rw [List.length_append]
    exact Nat.lt_add_right _ ha
  · intro y hy hy'
    exact absurd (hold y hy) (not_lt.mpr (hnew y hy'))

theorem detached_leaf {h : Heap K} (hc : Closed h) (o : Obj K) (ho : o.refs = []) :
    Detached h (.ok (h.alloc o)) := by
  refine detached_of_fresh (ext := [o]) hc le_rfl (by simp) ?_
  intro i o' hi b hb
  rcases i with - | i
  · simp at hi
    subst hi
    rw [ho] at hb
    cases hb
  · simp at hi

variable [Add K] [Sub K] [Mul K] [Div K] [Neg K] [NatCast K] [LT K] [LE K]
  [DecidableLT K] [DecidableLE K] [BEq K] [PyMath K]

/-- **C146** `assign`, `+=` and `rotate` of vectors, `+=` of angles, `assign` of sizes, `swap` of segments and `*=` of
matrices return their receiver and change no other object, whatever else refers to what; `transform_vec` does so with
its argument. -/
theorem C146_in_place (h : Heap K) (p q : Addr) (x y : K) :
    InPlace h p (h.vecAssign p x y) ∧ InPlace h p (h.vecIadd p q) ∧ InPlace h p (h.vecRotate p x) ∧
    InPlace h p (h.angleIadd p x) ∧ InPlace h p (h.sizeAssign p x y) ∧ InPlace h p (h.segSwap p) ∧
    InPlace h p (h.matImul p q) ∧ InPlace h q (h.matTransformVec p q) := by
  have assign : ∀ x y : K, InPlace h p (h.vecAssign p x y) := by
    intro x y
    unfold Heap.vecAssign
    cases h.vec p with
    | error e => exact inPlace_error
    | ok v => exact inPlace_set _
  refine ⟨assign x y, ?_, ?_, ?_, ?_, ?_, ?_, ?_⟩
  · unfold Heap.vecIadd
    cases h.vec p with
    | error e => exact inPlace_error
    | ok v =>
      cases h.vec q with
      | error e => exact inPlace_error
      | ok w => exact inPlace_set _
  · unfold Heap.vecRotate
    cases h.vec p with
    | error e => exact inPlace_error
    | ok v => exact assign _ _
  · unfold Heap.angleIadd
    cases h.angle p with
    | error e => exact inPlace_error
    | ok v => exact inPlace_set _
  · unfold Heap.sizeAssign
    cases h.size p with
    | error e => exact inPlace_error
    | ok v => exact inPlace_set _
  · unfold Heap.segSwap
    cases h.seg p with
    | error e => exact inPlace_error
    | ok v => exact inPlace_set _
  · unfold Heap.matImul
    cases h.mat p with
    | error e => exact inPlace_error
    | ok v =>
      cases h.mat q with
      | error e => exact inPlace_error
      | ok w => exact inPlace_set _
  · unfold Heap.matTransformVec
    cases h.mat p with
    | error e => exact inPlace_error
    | ok v =>
      cases h.vec q with
      | error e => exact inPlace_error
      | ok w => exact inPlace_set _

/-- The result of `Vector2D(p)` and the like. -/
theorem Heap.newVecCopy_cases (h : Heap K) (p : Addr) : (∃ e, h.newVecCopy p = .error e) ∨
    ∃ v, h.newVecCopy p = .ok (h.length, h ++ [.vec (Vec.ofVec v)]) := by
  unfold Heap.newVecCopy
  cases h.vec p with
  | error e => exact .inl ⟨e, rfl⟩
  | ok v => exact .inr ⟨v, rfl⟩

/-- **C146** Points, angles, segments, rays, circles, rectangles from a point and two numbers, rotated vectors,
transformed vectors and inverted matrices are made of new objects: nothing that held references before the call can
change them later, and the call changes nothing that existed. -/
theorem C146_detached (h : Heap K) (hc : Closed h) (p q : Addr) (x y : K) :
    Detached h (h.newVecCopy p) ∧ Detached h (h.newAngleCopy p) ∧ Detached h (h.newSizeCopy p) ∧
    Detached h (h.newSeg p q) ∧ Detached h (h.newRay p q) ∧ Detached h (h.newCircle p x) ∧
    Detached h (h.newRectLW p x y) ∧ Detached h (h.vecRotated p x) ∧ Detached h (h.matMulVec p q) ∧
    Detached h (h.matInverted p) := by
  refine ⟨?_, ?_, ?_, ?_, ?_, ?_, ?_, ?_, ?_, ?_⟩
  · unfold Heap.newVecCopy
    cases h.vec p with
    | error e => exact detached_error
    | ok v => exact detached_leaf hc _ rfl
  · unfold Heap.newAngleCopy
    cases h.angle p with
    | error e => exact detached_error
    | ok v => exact detached_leaf hc _ rfl
  · unfold Heap.newSizeCopy
    cases h.size p with
    | error e => exact detached_error
    | ok v => exact detached_leaf hc _ rfl
  · unfold Heap.newSeg
    rcases h.newVecCopy_cases p with ⟨e, he⟩ | ⟨v, hv⟩
    · rw [he]; exact detached_error
    rw [hv]
    change Detached h ((Heap.newVecCopy (h ++ [.vec (Vec.ofVec v)]) q).bind _)
    rcases Heap.newVecCopy_cases (h ++ [.vec (Vec.ofVec v)]) q with ⟨e, he⟩ | ⟨w, hw⟩
    · rw [he]; exact detached_error
    rw [hw]
    have := detached_of_fresh (h := h) (r := h.length + 2)
      (ext := [.vec (Vec.ofVec v), .vec (Vec.ofVec w), .seg h.length (h.length + 1)]) hc (by omega) (by simp) ?_
    · simpa [Except.bind, Heap.alloc] using this
    · intro i o' hi b hb
      match i, hi with
      | 0, hi | 1, hi => simp at hi; subst hi; cases hb
      | 2, hi =>
        simp at hi; subst hi
        simp [Obj.refs] at hb
        rcases hb with rfl | rfl <;> simp
      | i + 3, hi => simp at hi
  · unfold Heap.newRay
    rcases h.newVecCopy_cases p with ⟨e, he⟩ | ⟨v, hv⟩
    · rw [he]; exact detached_error
    rw [hv]
    change Detached h ((Heap.newAngleCopy (h ++ [.vec (Vec.ofVec v)]) q).bind _)
    unfold Heap.newAngleCopy
    cases Heap.angle (h ++ [.vec (Vec.ofVec v)]) q with
    | error e => exact detached_error
    | ok a =>
      have := detached_of_fresh (h := h) (r := h.length + 2)
        (ext := [.vec (Vec.ofVec v), .angle (AngleDeg.ofAngle a), .ray h.length (h.length + 1)]) hc (by omega) (by simp) ?_
      · simpa [Except.bind, Heap.alloc, bind] using this
      · intro i o' hi b hb
        match i, hi with
        | 0, hi | 1, hi => simp at hi; subst hi; cases hb
        | 2, hi =>
          simp at hi; subst hi
          simp [Obj.refs] at hb
          rcases hb with rfl | rfl <;> simp
        | i + 3, hi => simp at hi
  · unfold Heap.newCircle
    rcases h.newVecCopy_cases p with ⟨e, he⟩ | ⟨v, hv⟩
    · rw [he]; exact detached_error
    rw [hv]
    have := detached_of_fresh (h := h) (r := h.length + 1)
      (ext := [.vec (Vec.ofVec v), .circle h.length (if x < num 0 then num 0 else x)]) hc (by omega) (by simp) ?_
    · simpa [Except.bind, Heap.alloc, bind] using this
    · intro i o' hi b hb
      match i, hi with
      | 0, hi => simp at hi; subst hi; cases hb
      | 1, hi =>
        simp at hi; subst hi
        simp [Obj.refs] at hb
        subst hb; simp
      | i + 2, hi => simp at hi
  · unfold Heap.newRectLW
    rcases h.newVecCopy_cases p with ⟨e, he⟩ | ⟨v, hv⟩
    · rw [he]; exact detached_error
    rw [hv]
    have := detached_of_fresh (h := h) (r := h.length + 2)
      (ext := [.vec (Vec.ofVec v), .size (Size.ofLW x y), .rect h.length (h.length + 1)]) hc (by omega) (by simp) ?_
    · simpa [Except.bind, Heap.alloc, bind] using this
    · intro i o' hi b hb
      match i, hi with
      | 0, hi | 1, hi => simp at hi; subst hi; cases hb
      | 2, hi =>
        simp at hi; subst hi
        simp [Obj.refs] at hb
        rcases hb with rfl | rfl <;> simp
      | i + 3, hi => simp at hi
  · unfold Heap.vecRotated
    cases h.vec p with
    | error e => exact detached_error
    | ok v =>
      have hg : Heap.vec (h ++ [.vec (Vec.ofXY v.x v.y)]) h.length = .ok (Vec.ofXY v.x v.y) :=
        Heap.vec_ok.mpr (by simp)
      have := detached_leaf hc (.vec ((Vec.ofXY v.x v.y).rotate x)) rfl
      simpa [Except.bind, Heap.alloc, bind, Heap.vecRotate, Heap.vecAssign, hg, Heap.write, Vec.rotate] using this
  · unfold Heap.matMulVec
    cases h.mat p with
    | error e => exact detached_error
    | ok m =>
      cases h.vec q with
      | error e => exact detached_error
      | ok v => exact detached_leaf hc _ rfl
  · unfold Heap.matInverted
    cases h.mat p with
    | error e => exact detached_error
    | ok v => exact detached_leaf hc _ rfl

end

/-- **C146** The new values: `v += w`, `a += d`, `M.transform_vec(v)`, also if `v` and `w` are the same object. -/
theorem C146_values {h : Heap ℝ} {p q : Addr} {v w : Vec ℝ} {a : AngleDeg ℝ} {m : Mat ℝ} (d : ℝ) :
    (h[p]? = some (.vec v) → h[q]? = some (.vec w) → ∃ h', h.vecIadd p q = .ok (p, h') ∧
      h'[p]? = some (.vec ⟨v.x + w.x, v.y + w.y, v.valid⟩)) ∧
    (h[p]? = some (.angle a) → ∃ h' b, h.angleIadd p d = .ok (p, h') ∧ h'[p]? = some (.angle b) ∧
      AngleEq b.deg (a.deg + d) ∧ -180 ≤ b.deg ∧ b.deg ≤ 180) ∧
    (h[p]? = some (.mat m) → h[q]? = some (.vec w) → ∃ h', h.matTransformVec p q = .ok (q, h') ∧
      h'[q]? = some (.vec ⟨m.m11 * w.x + m.m12 * w.y + m.dx, m.m21 * w.x + m.m22 * w.y + m.dy, w.valid⟩)) := by
  have lt : ∀ {x : Addr} {o : Obj ℝ}, h[x]? = some o → x < h.length := fun ho => (List.getElem?_eq_some_iff.mp ho).1
  refine ⟨fun hp hq => ?_, fun hp => ?_, fun hp hq => ?_⟩
  · refine ⟨h.set p (.vec (v.iadd w)), ?_, by simp [lt hp, Vec.iadd]⟩
    simp [Heap.vecIadd, Heap.vec_ok.mpr hp, Heap.vec_ok.mpr hq, bind, Except.bind, Heap.write]
  · have ha : h.angle p = .ok a := by simp [Heap.angle, hp]
    refine ⟨h.set p (.angle (a.iaddNum d)), a.iaddNum d, ?_, by simp [lt hp], ?_⟩
    · simp [Heap.angleIadd, ha, bind, Except.bind, Heap.write]
    · exact ⟨(AngleDeg.normalDeg_spec _).2.1, (AngleDeg.normalDeg_spec _).1⟩
  · refine ⟨h.set q (.vec (m.transformVec w)), ?_, ?_⟩
    · simp [Heap.matTransformVec, Heap.mat_ok.mpr hp, Heap.vec_ok.mpr hq, bind, Except.bind, Heap.write]
    · simp [lt hq, Mat.transformVec, Vec.assign]

/-- **C146** The accessors with an underscore hand out the part itself: what is done to it is done to the segment. -/
theorem C146_reference {h : Heap ℝ} {s o t : Addr} {v : Vec ℝ} (hs : h[s]? = some (.seg o t))
    (ho : h[o]? = some (.vec v)) :
    h.segOriginRef s = .ok (o, h) ∧ ∀ x y, ∃ h2, h.vecAssign o x y = .ok (o, h2) ∧
      (s ≠ o → ∃ u h3, h2.segOrigin s = .ok (u, h3) ∧ h3[u]? = some (.vec ⟨x, y, true⟩)) := by
  refine ⟨by simp [Heap.segOriginRef, Heap.seg_ok.mpr hs, bind, Except.bind],
    fun x y => ⟨h.set o (.vec (v.assign x y)), ?_, fun hne => ?_⟩⟩
  · simp [Heap.vecAssign, Heap.vec_ok.mpr ho, bind, Except.bind, Heap.write]
  · have lo := (List.getElem?_eq_some_iff.mp ho).1
    have e1 : (h.set o (.vec (v.assign x y)))[s]? = some (.seg o t) := by
      rw [List.getElem?_set_ne (Ne.symm hne), hs]
    have e2 : (h.set o (.vec (v.assign x y)))[o]? = some (.vec (v.assign x y)) := by simp [lo]
    obtain ⟨u, h3, e3, e4⟩ : ∃ u h3, Heap.newVecCopy (h.set o (.vec (v.assign x y))) o = .ok (u, h3) ∧
        h3[u]? = some (.vec (Vec.ofVec (v.assign x y))) := by
      refine ⟨_, _, by simp only [Heap.newVecCopy, Heap.vec_ok.mpr e2, bind, Except.bind, Heap.alloc]; rfl, ?_⟩
      simp
    refine ⟨u, h3, ?_, ?_⟩
    · simp only [Heap.segOrigin, Heap.seg_ok.mpr e1, bind, Except.bind]; exact e3
    · rw [e4]; simp [Vec.ofVec, Vec.assign]

example : ∃ h', Heap.vecIadd [.vec ⟨(1 : ℝ), 2, true⟩] 0 0 = .ok (0, h') ∧ h'[0]? = some (.vec ⟨(2 : ℝ), 4, true⟩) := by
  obtain ⟨h', h1, h2⟩ := (C146_values (h := [.vec ⟨1, 2, true⟩]) (p := 0) (q := 0) (v := ⟨1, 2, true⟩) (w := ⟨1, 2, true⟩)
    (a := ⟨0⟩) (m := ⟨1, 0, 0, 1, 0, 0⟩) 0).1 rfl rfl
  exact ⟨h', h1, by rw [h2]; norm_num⟩

/-! ## C147 -/

theorem Heap.vecs_ok {h : Heap ℝ} : ∀ {l : List Addr} {vs : List (Vec ℝ)}, h.vecs l = .ok vs ↔
    List.Forall₂ (fun a v => h[a]? = some (.vec v)) l vs
  | [], vs => by
    simp only [Heap.vecs, List.forall₂_nil_left_iff]
    exact ⟨fun h => (Except.ok.inj h).symm, fun h => by rw [h]⟩
  | a :: t, vs => by
    rw [List.forall₂_cons_left_iff]
    constructor
    · intro hv
      simp only [Heap.vecs, bind, Except.bind] at hv
      split at hv
      · cases hv
      rename_i v hva
      split at hv
      · cases hv
      rename_i ws hws
      exact ⟨v, ws, Heap.vec_ok.mp hva, Heap.vecs_ok.mp hws, (Except.ok.inj hv).symm⟩
    · rintro ⟨v, ws, h1, h2, rfl⟩
      simp [Heap.vecs, Heap.vec_ok.mpr h1, Heap.vecs_ok.mpr h2, bind, Except.bind]

theorem Heap.polyVal_ok {h : Heap ℝ} {p : Addr} {vs : List (Vec ℝ)} : h.polyVal p = .ok ⟨vs⟩ ↔
    ∃ l as, h[p]? = some (.poly l) ∧ h[l]? = some (.list as) ∧ List.Forall₂ (fun a v => h[a]? = some (.vec v)) as vs := by
  constructor
  · intro hv
    simp only [Heap.polyVal, bind, Except.bind] at hv
    split at hv
    · cases hv
    rename_i l hl
    split at hv
    · cases hv
    rename_i as has
    split at hv
    · cases hv
    rename_i ws hws
    have := Except.ok.inj hv
    injection this with this
    subst this
    exact ⟨l, as, Heap.poly_ok.mp hl, Heap.list_ok.mp has, Heap.vecs_ok.mp hws⟩
  · rintro ⟨l, as, h1, h2, h3⟩
    simp [Heap.polyVal, Heap.poly_ok.mpr h1, Heap.list_ok.mpr h2, Heap.vecs_ok.mpr h3, bind, Except.bind]

/-- **C147** `add_vertex(v)` appends the point to the polygon and changes one list; every polygon with another vertex
list, and every point, is as before. -/
theorem C147_add_vertex {h : Heap ℝ} {p l a : Addr} {as : List Addr} {vs : List (Vec ℝ)} {v : Vec ℝ}
    (hp : h[p]? = some (.poly l)) (hl : h[l]? = some (.list as)) (hv : h.polyVal p = .ok ⟨vs⟩)
    (ha : h[a]? = some (.vec v)) :
    ∃ h', h.polyAddVertex p a = .ok h' ∧ h'.polyVal p = .ok ⟨vs ++ [v]⟩ ∧ (∀ x, x ≠ l → h'[x]? = h[x]?) ∧
      ∀ p' l' ws, h[p']? = some (.poly l') → l' ≠ l → h.polyVal p' = .ok ⟨ws⟩ → h'.polyVal p' = .ok ⟨ws⟩ := by
  have lt := (List.getElem?_eq_some_iff.mp hl).1
  have hne : ∀ {x : Addr} {o : Obj ℝ}, h[x]? = some o → (∀ as, o ≠ .list as) →
      (h.set l (.list (as ++ [a])))[x]? = some o := by
    intro x o hx ho
    rw [List.getElem?_set_ne, hx]
    rintro rfl
    rw [hl] at hx
    exact ho _ (Option.some.inj hx).symm
  refine ⟨h.set l (.list (as ++ [a])), ?_, ?_, fun x hx => List.getElem?_set_ne (Ne.symm hx), ?_⟩
  · simp [Heap.polyAddVertex, Heap.poly_ok.mpr hp, Heap.listAppend, Heap.list_ok.mpr hl, bind, Except.bind, Heap.write]
  · obtain ⟨l1, as1, e1, e2, e3⟩ := Heap.polyVal_ok.mp hv
    rw [hp] at e1; cases e1
    rw [hl] at e2; cases e2
    refine Heap.polyVal_ok.mpr ⟨l, as ++ [a], hne hp (by intros; simp), by simp [lt], ?_⟩
    refine List.rel_append (e3.imp fun x y hxy => hne hxy (by intros; simp)) ?_
    exact .cons (hne ha (by intros; simp)) .nil
  · intro p' l' ws e1 e2 e3
    obtain ⟨l1, as1, f1, f2, f3⟩ := Heap.polyVal_ok.mp e3
    rw [e1] at f1; cases f1
    refine Heap.polyVal_ok.mpr ⟨l', as1, hne e1 (by intros; simp), ?_, f3.imp fun x y hxy => hne hxy (by intros; simp)⟩
    rw [List.getElem?_set_ne (Ne.symm e2), f2]

/-- **C147** `Polygon2D(list)` has the points of the list, in its own list object: appending to either does not change
the other. -/
theorem C147_new_polygon {h : Heap ℝ} {l : Addr} {as : List Addr} {vs : List (Vec ℝ)}
    (hl : h[l]? = some (.list as)) (hvs : h.vecs as = .ok vs) :
    ∃ p l' h', h.newPoly l = .ok (p, h') ∧ h'.polyVal p = .ok ⟨vs⟩ ∧ h'[p]? = some (.poly l') ∧ l' ≠ l ∧
      (∀ x, x < h.length → h'[x]? = h[x]?) := by
  have lt := (List.getElem?_eq_some_iff.mp hl).1
  refine ⟨h.length + 1, h.length, h ++ [.list as, .poly h.length], ?_, ?_, ?_, lt.ne',
    fun x hx => List.getElem?_append_left hx⟩
  · simp [Heap.newPoly, Heap.listCopy, Heap.list_ok.mpr hl, Heap.alloc, bind, Except.bind]
  · refine Heap.polyVal_ok.mpr ⟨h.length, as, by simp, by simp, (Heap.vecs_ok.mp hvs).imp fun a v hav => ?_⟩
    rw [List.getElem?_append_left (List.getElem?_eq_some_iff.mp hav).1, hav]
  · simp

/-- **C147** `to_polygon()` is the polygon of the hull's vertices, in a list of its own. -/
theorem C147_to_polygon {h : Heap ℝ} {c i l e : Addr} {as : List Addr} {vs : List (Vec ℝ)}
    (hc : h[c]? = some (.hull i l e)) (hl : h[l]? = some (.list as)) (hvs : h.vecs as = .ok vs) :
    ∃ p l' h', h.hullToPolygon c = .ok (p, h') ∧ h'.polyVal p = .ok ⟨vs⟩ ∧ h'[p]? = some (.poly l') ∧ l' ≠ l ∧
      (∀ x, x < h.length → h'[x]? = h[x]?) := by
  have : h.hullToPolygon c = h.newPoly l := by
    simp [Heap.hullToPolygon, Heap.hull_ok.mpr hc, bind, Except.bind]
  rw [this]
  exact C147_new_polygon hl hvs

/-- **C147** `add_point(p)` appends to the list the hull was made from, and changes nothing else. -/
theorem C147_add_point {h : Heap ℝ} {c i l e a : Addr} {as : List Addr} (hc : h[c]? = some (.hull i l e))
    (hi : h[i]? = some (.list as)) : ∃ h', h.hullAddPoint c a = .ok h' ∧ h'[i]? = some (.list (as ++ [a])) ∧
      ∀ x, x ≠ i → h'[x]? = h[x]? := by
  have lt := (List.getElem?_eq_some_iff.mp hi).1
  refine ⟨h.set i (.list (as ++ [a])), ?_, by simp [lt], fun x hx => List.getElem?_set_ne (Ne.symm hx)⟩
  simp [Heap.hullAddPoint, Heap.hull_ok.mpr hc, Heap.listAppend, Heap.list_ok.mpr hi, bind, Except.bind, Heap.write]

example : ∃ h', Heap.polyAddVertex [.vec ⟨1, 2, true⟩, .list [0, 0], .poly 1] 2 0 = .ok h' ∧
    h'.polyVal 2 = .ok ⟨[⟨(1 : ℝ), 2, true⟩, ⟨1, 2, true⟩, ⟨1, 2, true⟩]⟩ := by
  obtain ⟨h', h1, h2, -⟩ := C147_add_vertex (h := [.vec ⟨1, 2, true⟩, .list [0, 0], .poly 1]) (p := 2) (l := 1) (a := 0)
    (as := [0, 0]) (vs := [⟨(1 : ℝ), 2, true⟩, ⟨1, 2, true⟩]) (v := ⟨1, 2, true⟩) rfl rfl rfl rfl
  exact ⟨h', h1, h2⟩

end PyrusGeom
