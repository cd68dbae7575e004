import Verif.Model.Text

/-! # Properties C126, C127: `__repr__` and `to_str` -/

namespace PyrusGeom

/-- Texts of numbers are made of characters other than the delimiters (Python: digits, sign, point, `e`, `inf`, `nan`). -/
def Spec.NumText {K : Type} (str : K → List Char) : Prop :=
  ∀ x, ',' ∉ str x ∧ ')' ∉ str x ∧ ' ' ∉ str x ∧ ']' ∉ str x

open Spec

theorem split_at {c : Char} {u u' v v' : List Char} (hu : c ∉ u) (hu' : c ∉ u') (h : u ++ c :: v = u' ++ c :: v') :
    u = u' ∧ v = v' := by
  induction u generalizing u' with
  | nil =>
    cases u' with
    | nil => simpa using h
    | cons a u' =>
      simp only [List.nil_append, List.cons_append, List.cons.injEq] at h
      exact absurd (by simp [h.1]) hu'
  | cons a u ih =>
    cases u' with
    | nil =>
      simp only [List.nil_append, List.cons_append, List.cons.injEq] at h
      exact absurd (by simp [h.1]) hu
    | cons b u' =>
      simp only [List.cons_append, List.cons.injEq] at h
      obtain ⟨h1, h2⟩ := ih (fun h => hu (by simp [h])) (fun h => hu' (by simp [h])) h.2
      exact ⟨by rw [h.1, h1], h2⟩

variable {K : Type} {str : K → List Char}

theorem Vec.repr_append (v : Vec K) (r : List Char) : v.repr str ++ r = '(' :: (str v.x ++ ',' :: (str v.y ++ ')' :: r)) := by
  simp [Vec.repr]

/-- No text of a vector continues another one. -/
theorem Vec.repr_prefix (hs : NumText str) {v w : Vec K} {r r' : List Char} (h : v.repr str ++ r = w.repr str ++ r') :
    (str v.x = str w.x ∧ str v.y = str w.y) ∧ r = r' := by
  rw [Vec.repr_append, Vec.repr_append, List.cons.injEq] at h
  obtain ⟨h1, h2⟩ := split_at (hs _).1 (hs _).1 h.2
  obtain ⟨h3, h4⟩ := split_at (hs _).2.1 (hs _).2.1 h2
  exact ⟨⟨h1, h3⟩, h4⟩

theorem Vec.repr_congr {v w : Vec K} (h : str v.x = str w.x ∧ str v.y = str w.y) : v.repr str = w.repr str := by
  unfold Vec.repr; rw [h.1, h.2]

/-- Equal texts of coordinates. -/
def Spec.SameVec (str : K → List Char) (v w : Vec K) : Prop := str v.x = str w.x ∧ str v.y = str w.y

/-- Equal texts of the coordinates of both end points. -/
def Spec.SameSeg (str : K → List Char) (s t : Seg K) : Prop :=
  SameVec str s.origin t.origin ∧ SameVec str s.terminal t.terminal

theorem Seg.repr_append (s : Seg K) (r : List Char) :
    s.repr str ++ r = '[' :: (s.origin.repr str ++ ',' :: (s.terminal.repr str ++ ']' :: r)) := by
  simp [Seg.repr]

theorem Seg.repr_prefix (hs : NumText str) {s t : Seg K} {r r' : List Char} (h : s.repr str ++ r = t.repr str ++ r') :
    SameSeg str s t ∧ r = r' := by
  rw [Seg.repr_append, Seg.repr_append, List.cons.injEq] at h
  obtain ⟨h1, h2⟩ := Vec.repr_prefix hs h.2
  rw [List.cons.injEq] at h2
  obtain ⟨h3, h4⟩ := Vec.repr_prefix hs h2.2
  rw [List.cons.injEq] at h4
  exact ⟨⟨h1, h3⟩, h4.2⟩

theorem joinComma_cons (t u : List Char) (l : List (List Char)) :
    joinComma (t :: u :: l) = t ++ ',' :: ' ' :: joinComma (u :: l) := by
  simp [joinComma]

theorem joinComma_one (t : List Char) : joinComma [t] = t := rfl

theorem list_prefix {α : Type} {t : α → List Char} {S : α → α → Prop}
    (hp : ∀ a b r r', t a ++ r = t b ++ r' → S a b ∧ r = r') (h0 : ∀ a, ∃ c u, t a = c :: u ∧ c ≠ ']')
    (l l' : List α) {r r' : List Char} (h : joinComma (l.map t) ++ ']' :: r = joinComma (l'.map t) ++ ']' :: r') :
    List.Forall₂ S l l' ∧ r = r' := by
  have hne : ∀ (a : α) (l : List α), ∃ c u, joinComma ((a :: l).map t) = c :: u ∧ c ≠ ']' := by
    intro a l
    obtain ⟨c, u, e, hc⟩ := h0 a
    cases l with
    | nil => exact ⟨c, u, by simp [joinComma, e], hc⟩
    | cons b l => exact ⟨c, _, by rw [List.map_cons, List.map_cons, joinComma_cons, e]; rfl, hc⟩
  induction l generalizing l' with
  | nil =>
    cases l' with
    | nil =>
      simp only [List.map_nil, joinComma, List.nil_append, List.cons.injEq, true_and] at h
      exact ⟨.nil, h⟩
    | cons b l' =>
      obtain ⟨c, u, e, hc⟩ := hne b l'
      rw [e] at h
      simp only [List.map_nil, joinComma, List.nil_append, List.cons_append, List.cons.injEq] at h
      exact absurd h.1.symm hc
  | cons a l ih =>
    cases l' with
    | nil =>
      obtain ⟨c, u, e, hc⟩ := hne a l
      rw [e] at h
      simp only [List.map_nil, joinComma, List.nil_append, List.cons_append, List.cons.injEq] at h
      exact absurd h.1 hc
    | cons b l' =>
      cases l with
      | nil =>
        cases l' with
        | nil =>
          simp only [List.map_cons, List.map_nil, joinComma] at h
          obtain ⟨h1, h2⟩ := hp _ _ _ _ h
          rw [List.cons.injEq] at h2
          exact ⟨.cons h1 .nil, h2.2⟩
        | cons b' l' =>
          simp only [List.map_cons, List.map_nil, joinComma_cons, joinComma_one, List.append_assoc] at h
          obtain ⟨-, h2⟩ := hp _ _ _ _ h
          simp at h2
      | cons a' l =>
        cases l' with
        | nil =>
          simp only [List.map_cons, List.map_nil, joinComma_cons, joinComma_one, List.append_assoc] at h
          obtain ⟨-, h2⟩ := hp _ _ _ _ h
          simp at h2
        | cons b' l' =>
          rw [List.map_cons, List.map_cons, List.map_cons, List.map_cons, joinComma_cons, joinComma_cons,
            List.append_assoc, List.append_assoc] at h
          obtain ⟨h1, h2⟩ := hp _ _ _ _ h
          simp only [List.cons_append, List.cons.injEq, true_and] at h2
          obtain ⟨h3, h4⟩ := ih (b' :: l') h2
          exact ⟨.cons h1 h3, h4⟩

theorem listRepr_append (l : List (List Char)) (r : List Char) : listRepr l ++ r = '[' :: (joinComma l ++ ']' :: r) := by
  simp [listRepr]

theorem vecs_prefix (hs : NumText str) {l l' : List (Vec K)} {r r' : List Char}
    (h : listRepr (l.map (Vec.repr str)) ++ r = listRepr (l'.map (Vec.repr str)) ++ r') :
    List.Forall₂ (SameVec str) l l' ∧ r = r' := by
  rw [listRepr_append, listRepr_append, List.cons.injEq] at h
  exact list_prefix (t := Vec.repr str) (fun a b r r' h => Vec.repr_prefix hs h)
    (fun a => ⟨'(', _, by simpa using Vec.repr_append (str := str) a [], by decide⟩) l l' h.2

theorem segs_prefix (hs : NumText str) {l l' : List (Seg K)} {r r' : List Char}
    (h : listRepr (l.map (Seg.repr str)) ++ r = listRepr (l'.map (Seg.repr str)) ++ r') :
    List.Forall₂ (SameSeg str) l l' ∧ r = r' := by
  rw [listRepr_append, listRepr_append, List.cons.injEq] at h
  exact list_prefix (t := Seg.repr str) (fun a b r r' h => Seg.repr_prefix hs h)
    (fun a => ⟨'[', _, by simpa using Seg.repr_append (str := str) a [], by decide⟩) l l' h.2

theorem map_forall₂ {α β : Type} {f : α → β} {S : α → α → Prop} (hf : ∀ a b, S a b → f a = f b) {l l' : List α}
    (h : List.Forall₂ S l l') : l.map f = l'.map f := by
  induction h with
  | nil => rfl
  | cons h _ ih => rw [List.map_cons, List.map_cons, hf _ _ h, ih]

/-! ## C126 -/

/-- **C126** Vectors, angles, segments, triangles, circles, rays: equal texts exactly if all numbers have equal texts. -/
theorem C126_shapes (hs : NumText str) :
    (∀ v w : Vec K, v.repr str = w.repr str ↔ str v.x = str w.x ∧ str v.y = str w.y) ∧
    (∀ a b : AngleDeg K, a.repr str = b.repr str ↔ str a.deg = str b.deg) ∧
    (∀ s t : Seg K, s.repr str = t.repr str ↔ SameSeg str s t) ∧
    (∀ s t : Tri K, s.repr str = t.repr str ↔ SameVec str s.a t.a ∧ SameVec str s.b t.b ∧ SameVec str s.c t.c) ∧
    (∀ c e : Circle K, c.repr str = e.repr str ↔ SameVec str c.center e.center ∧ str c.radius = str e.radius) ∧
    (∀ r q : Ray K, r.repr str = q.repr str ↔ SameVec str r.origin q.origin ∧ str r.dir.deg = str q.dir.deg) := by
  have hv : ∀ {v w : Vec K}, SameVec str v w → v.repr str = w.repr str := fun h => Vec.repr_congr h
  refine ⟨?_, ?_, ?_, ?_, ?_, ?_⟩
  · intro v w
    refine ⟨fun h => ?_, Vec.repr_congr⟩
    exact (Vec.repr_prefix (r := []) (r' := []) hs (by rw [h])).1
  · intro a b; rfl
  · intro s t
    refine ⟨fun h => (Seg.repr_prefix (r := []) (r' := []) hs (by rw [h])).1, fun h => ?_⟩
    unfold Seg.repr; rw [hv h.1, hv h.2]
  · intro s t
    refine ⟨fun h => ?_, fun h => ?_⟩
    · have e : ∀ u : Tri K, u.repr str = '[' :: (u.a.repr str ++ ',' :: (u.b.repr str ++ ',' :: (u.c.repr str ++ [']']))) := by
        intro u; simp [Tri.repr]
      rw [e, e, List.cons.injEq] at h
      obtain ⟨h1, h2⟩ := Vec.repr_prefix hs h.2
      rw [List.cons.injEq] at h2
      obtain ⟨h3, h4⟩ := Vec.repr_prefix hs h2.2
      rw [List.cons.injEq] at h4
      obtain ⟨h5, -⟩ := Vec.repr_prefix hs h4.2
      exact ⟨h1, h3, h5⟩
    · unfold Tri.repr; rw [hv h.1, hv h.2.1, hv h.2.2]
  · intro c e
    refine ⟨fun h => ?_, fun h => ?_⟩
    · have q : ∀ u : Circle K, u.repr str = '(' :: (u.center.repr str ++ ' ' :: ',' :: ' ' :: (str u.radius ++ ')' :: [])) := by
        intro u; simp [Circle.repr]
      rw [q, q, List.cons.injEq] at h
      obtain ⟨h1, h2⟩ := Vec.repr_prefix hs h.2
      simp only [List.cons.injEq, true_and] at h2
      exact ⟨h1, (split_at (hs _).2.1 (hs _).2.1 h2).1⟩
    · unfold Circle.repr; rw [hv h.1, h.2]
  · intro r q
    refine ⟨fun h => ?_, fun h => ?_⟩
    · unfold Ray.repr at h
      rw [List.append_assoc, List.append_assoc] at h
      obtain ⟨h1, h2⟩ := Vec.repr_prefix hs h
      exact ⟨h1, List.append_cancel_left h2⟩
    · unfold Ray.repr AngleDeg.repr; rw [hv h.1, h.2]

/-- **C126** Sizes, rectangles, sectors, matrices. -/
theorem C126_numbers (hs : NumText str) :
    (∀ s t : Size K, s.repr str = t.repr str ↔ str s.length = str t.length ∧ str s.width = str t.width) ∧
    (∀ r q : Rect K, r.repr str = q.repr str ↔
      SameVec str r.topLeft q.topLeft ∧ str r.size.length = str q.size.length ∧ str r.size.width = str q.size.width) ∧
    (∀ s t : Sector K, s.repr str = t.repr str ↔ SameVec str s.center t.center ∧ str s.start.deg = str t.start.deg ∧
      str s.stop.deg = str t.stop.deg ∧ str s.minR = str t.minR ∧ str s.maxR = str t.maxR) ∧
    (∀ m n : Mat K, m.repr str = n.repr str ↔ str m.m11 = str n.m11 ∧ str m.m12 = str n.m12 ∧ str m.m21 = str n.m21 ∧
      str m.m22 = str n.m22 ∧ str m.dx = str n.dx ∧ str m.dy = str n.dy) := by
  have e1 : ",wid:".toList = ',' :: "wid:".toList := rfl
  have e2 : "]".toList = ']' :: [] := rfl
  have e3 : ", ".toList = ',' :: " ".toList := rfl
  have e4 : ")          r(".toList = ')' :: "          r(".toList := rfl
  have e5 : ")]".toList = ')' :: [']'] := rfl
  have hv : ∀ {v w : Vec K}, SameVec str v w → v.repr str = w.repr str := fun h => Vec.repr_congr h
  refine ⟨?_, ?_, ?_, ?_⟩
  · intro s t
    refine ⟨fun h => ?_, fun h => ?_⟩
    · unfold Size.repr at h
      simp only [List.append_assoc, e1, e2, List.cons_append] at h
      obtain ⟨h1, h2⟩ := split_at (hs _).1 (hs _).1 (List.append_cancel_left h)
      obtain ⟨h3, -⟩ := split_at (hs _).2.2.2 (hs _).2.2.2 (List.append_cancel_left h2)
      exact ⟨h1, h3⟩
    · unfold Size.repr; rw [h.1, h.2]
  · intro s t
    refine ⟨fun h => ?_, fun h => ?_⟩
    · unfold Rect.repr at h
      simp only [List.append_assoc, e1, e2, List.cons_append] at h
      obtain ⟨h0, h1⟩ := Vec.repr_prefix hs (List.append_cancel_left h)
      obtain ⟨h2, h3⟩ := split_at (hs _).1 (hs _).1 (List.append_cancel_left h1)
      obtain ⟨h4, -⟩ := split_at (hs _).2.2.2 (hs _).2.2.2 (List.append_cancel_left h3)
      exact ⟨h0, h2, h4⟩
    · unfold Rect.repr; rw [hv h.1, h.2.1, h.2.2]
  · intro s t
    refine ⟨fun h => ?_, fun h => ?_⟩
    · unfold Sector.repr AngleDeg.repr at h
      simp only [List.append_assoc, e3, e4, e5, List.cons_append] at h
      obtain ⟨h0, h1⟩ := Vec.repr_prefix hs (List.append_cancel_left h)
      obtain ⟨h2, h3⟩ := split_at (hs _).1 (hs _).1 (List.append_cancel_left h1)
      obtain ⟨h4, h5⟩ := split_at (hs _).2.1 (hs _).2.1 (List.append_cancel_left h3)
      obtain ⟨h6, h7⟩ := split_at (hs _).1 (hs _).1 (List.append_cancel_left h5)
      obtain ⟨h8, -⟩ := split_at (hs _).2.1 (hs _).2.1 (List.append_cancel_left h7)
      exact ⟨h0, h2, h4, h6, h8⟩
    · unfold Sector.repr AngleDeg.repr; rw [hv h.1, h.2.1, h.2.2.1, h.2.2.2.1, h.2.2.2.2]
  · intro m n
    refine ⟨fun h => ?_, fun h => ?_⟩
    · unfold Mat.repr listRepr at h
      simp only [List.map_cons, List.map_nil, joinComma, List.append_assoc, e2, e3, List.cons_append] at h
      obtain ⟨h1, h⟩ := split_at (hs _).1 (hs _).1 (List.append_cancel_left h)
      obtain ⟨h2, h⟩ := split_at (hs _).1 (hs _).1 (List.append_cancel_left h)
      obtain ⟨h3, h⟩ := split_at (hs _).1 (hs _).1 (List.append_cancel_left h)
      obtain ⟨h4, h⟩ := split_at (hs _).1 (hs _).1 (List.append_cancel_left h)
      obtain ⟨h5, h⟩ := split_at (hs _).1 (hs _).1 (List.append_cancel_left h)
      obtain ⟨h6, -⟩ := split_at (hs _).2.2.2 (hs _).2.2.2 (List.append_cancel_left h)
      exact ⟨h1, h2, h3, h4, h5, h6⟩
    · obtain ⟨h1, h2, h3, h4, h5, h6⟩ := h
      simp [Mat.repr, h1, h2, h3, h4, h5, h6]

/-- **C126** Lines: `c` is left out exactly if it is zero, and the text still determines it. -/
theorem C126_line (hs : NumText str) [NatCast K] [BEq K] (l m : Line K) : l.repr str = m.repr str ↔
    str l.a = str m.a ∧ str l.b = str m.b ∧ (l.c == num 0) = (m.c == num 0) ∧ ((l.c == num 0) = false → str l.c = str m.c) := by
  have q0 : ∀ u : Line K, (u.c == num 0) = true → u.repr str = '(' :: (str u.a ++ ' ' :: ("X + ".toList ++ (str u.b ++
      ' ' :: 'Y' :: ' ' :: "= 0)".toList))) := by
    intro u hu; simp [Line.repr, hu]
  have q1 : ∀ u : Line K, (u.c == num 0) = false → u.repr str = '(' :: (str u.a ++ ' ' :: ("X + ".toList ++ (str u.b ++
      ' ' :: 'Y' :: ' ' :: ("+ ".toList ++ (str u.c ++ ' ' :: "= 0)".toList))))) := by
    intro u hu; simp [Line.repr, hu]
  constructor
  · intro h
    cases hl : (l.c == num 0) <;> cases hm : (m.c == num 0)
    · rw [q1 l hl, q1 m hm, List.cons.injEq] at h
      obtain ⟨h1, h2⟩ := split_at (hs _).2.2.1 (hs _).2.2.1 h.2
      obtain ⟨h3, h4⟩ := split_at (hs _).2.2.1 (hs _).2.2.1 (List.append_cancel_left h2)
      simp only [List.cons.injEq, true_and] at h4
      exact ⟨h1, h3, rfl, fun _ => (split_at (hs _).2.2.1 (hs _).2.2.1 (List.append_cancel_left h4)).1⟩
    · rw [q1 l hl, q0 m hm, List.cons.injEq] at h
      obtain ⟨h1, h2⟩ := split_at (hs _).2.2.1 (hs _).2.2.1 h.2
      obtain ⟨h3, h4⟩ := split_at (hs _).2.2.1 (hs _).2.2.1 (List.append_cancel_left h2)
      simp at h4
    · rw [q0 l hl, q1 m hm, List.cons.injEq] at h
      obtain ⟨h1, h2⟩ := split_at (hs _).2.2.1 (hs _).2.2.1 h.2
      obtain ⟨h3, h4⟩ := split_at (hs _).2.2.1 (hs _).2.2.1 (List.append_cancel_left h2)
      simp at h4
    · rw [q0 l hl, q0 m hm, List.cons.injEq] at h
      obtain ⟨h1, h2⟩ := split_at (hs _).2.2.1 (hs _).2.2.1 h.2
      obtain ⟨h3, h4⟩ := split_at (hs _).2.2.1 (hs _).2.2.1 (List.append_cancel_left h2)
      exact ⟨h1, h3, rfl, fun h => by simp at h⟩
  · rintro ⟨h1, h2, h3, h4⟩
    unfold Line.repr
    rw [h1, h2, h3]
    cases hm : (m.c == num 0)
    · rw [h4 (h3.trans hm)]
    · rfl

/-- **C126** Polygons and hulls, with any number of vertices and edges. -/
theorem C126_lists (hs : NumText str) :
    (∀ p q : Poly K, p.repr str = q.repr str ↔ List.Forall₂ (SameVec str) p.vertices q.vertices) ∧
    (∀ h g : Hull.Obj K, h.repr str = g.repr str ↔
      List.Forall₂ (SameVec str) h.vertices g.vertices ∧ List.Forall₂ (SameSeg str) h.getEdges g.getEdges) := by
  have hv : ∀ v w : Vec K, SameVec str v w → v.repr str = w.repr str := fun _ _ h => Vec.repr_congr h
  have hsg : ∀ s t : Seg K, SameSeg str s t → s.repr str = t.repr str := fun s t h => ((C126_shapes hs).2.2.1 s t).mpr h
  constructor
  · intro p q
    refine ⟨fun h => ?_, fun h => ?_⟩
    · unfold Poly.repr at h
      rw [List.append_assoc, List.append_assoc] at h
      exact (vecs_prefix hs (List.append_cancel_left h)).1
    · unfold Poly.repr; rw [map_forall₂ hv h]
  · intro p q
    refine ⟨fun h => ?_, fun h => ?_⟩
    · unfold Hull.Obj.repr at h
      simp only [List.append_assoc] at h
      obtain ⟨h1, h2⟩ := vecs_prefix hs (List.append_cancel_left h)
      obtain ⟨h3, -⟩ := segs_prefix hs (List.append_cancel_left h2)
      exact ⟨h1, h3⟩
    · unfold Hull.Obj.repr; rw [map_forall₂ hv h.1, map_forall₂ hsg h.2]

/-- The numbers of a polygon can be read off its text if the text of a number determines it. -/
theorem C126_read_back (hs : NumText str) (hi : Function.Injective str) (p q : Poly K) :
    p.repr str = q.repr str ↔ p.vertices.map (fun v => (v.x, v.y)) = q.vertices.map (fun v => (v.x, v.y)) := by
  rw [(C126_lists hs).1]
  constructor
  · intro h
    exact map_forall₂ (fun a b h => by rw [hi h.1, hi h.2]) h
  · intro h
    obtain ⟨l⟩ := p
    obtain ⟨l'⟩ := q
    simp only at h ⊢
    induction l generalizing l' with
    | nil =>
      cases l' with
      | nil => exact .nil
      | cons b l' => simp at h
    | cons a l ih =>
      cases l' with
      | nil => simp at h
      | cons b l' =>
        simp only [List.map_cons, List.cons.injEq, Prod.mk.injEq] at h
        exact .cons ⟨by rw [h.1.1], by rw [h.1.2]⟩ (ih l' h.2)

/-- The text of a number as in Python for natural numbers. -/
def digits (n : ℕ) : List Char := List.replicate n '1'

/-- C126: the assumptions on `str` can be met. -/
theorem digits_ok : NumText digits ∧ Function.Injective digits := by
  constructor
  · intro x; simp [digits, List.mem_replicate]
  · intro a b h
    have := congrArg List.length h
    simpa [digits] using this

example : (⟨[⟨1, 2, true⟩, ⟨3, 1, true⟩]⟩ : Poly ℕ).repr digits = "([(1,11), (111,1)])".toList := by decide

/-! ## C127 -/

/-- **C127 is false** for circles, segments and triangles: `to_str` returns `None` (for triangles against its annotation). -/
theorem C127_none_refuted (c : Circle K) (s : Seg K) (t : Tri K) (ostr text : List Char) :
    c.toStr ostr ≠ some (ostr ++ text) ∧ s.toStr ostr ≠ some (ostr ++ text) ∧ t.toStr ostr ≠ some (ostr ++ text) := by
  simp [Circle.toStr, Seg.toStr, Tri.toStr]

/-- **C127 is false** for every rectangle: the text is never `(rect left top right bottom)` after the given string. -/
theorem C127_rect_refuted [Add K] (str3 : K → List Char) (r : Rect K) (ostr : List Char) :
    r.toStr str3 ostr ≠ some (ostr ++ ("(rect ".toList ++ str3 r.left ++ " ".toList ++ str3 r.top ++ " ".toList ++
      str3 r.right ++ " ".toList ++ str3 r.bottom ++ ")".toList)) := by
  intro h
  rw [Rect.toStr, Option.some.injEq] at h
  have := congrArg List.length h
  simp at this
  omega

/-- **C127** (part) For rectangles the given string is kept and followed by a text from which the four numbers can be read. -/
theorem C127_rect_partial [Add K] (str3 : K → List Char) (hs : NumText str3) (r : Rect K) (ostr : List Char) :
    ∃ t, r.toStr str3 ostr = some (ostr ++ t) ∧ ∀ q : Rect K, q.toStr str3 ostr = some (ostr ++ t) ↔
      str3 q.left = str3 r.left ∧ str3 q.top = str3 r.top ∧ str3 q.right = str3 r.right ∧ str3 q.bottom = str3 r.bottom := by
  refine ⟨_, rfl, ?_⟩
  intro q
  rw [Rect.toStr, Option.some.injEq, List.append_cancel_left_eq]
  constructor
  · intro h
    have e : ∀ a b c d : List Char, "(rect ".toList ++ a ++ " ".toList ++ b ++ "             f".toList ++ c ++ " ".toList ++ d ++
        ")".toList = "(rect ".toList ++ (a ++ ' ' :: (b ++ ' ' :: ("            f".toList ++ (c ++ ' ' :: (d ++ ')' :: []))))) := by
      intro a b c d; simp
    rw [e, e] at h
    obtain ⟨h1, h⟩ := split_at (hs _).2.2.1 (hs _).2.2.1 (List.append_cancel_left h)
    obtain ⟨h2, h⟩ := split_at (hs _).2.2.1 (hs _).2.2.1 h
    obtain ⟨h3, h⟩ := split_at (hs _).2.2.1 (hs _).2.2.1 (List.append_cancel_left h)
    obtain ⟨h4, -⟩ := split_at (hs _).2.1 (hs _).2.1 h
    exact ⟨h1, h2, h3, h4⟩
  · rintro ⟨h1, h2, h3, h4⟩
    rw [h1, h2, h3, h4]

example : (⟨⟨1, 2, true⟩, ⟨1, 1⟩⟩ : Rect ℕ).toStr digits ['x'] = some "x(rect 1 11             f11 111)".toList := by decide

end PyrusGeom
