import Verif.Lemmas.Polygon
import Verif.Props.Triangle
import Verif.Props.Rect
import Mathlib.Topology.Order.Basic
import Mathlib.Tactic.IntervalCases

/-! # Properties C71 – C77: `Polygon2D` -/

namespace PyrusGeom
open Spec

/-- The vertices of a polygon as points. -/
def Poly.pts (p : Poly ℝ) : List Pt := p.vertices.map Vec.pt

/-! ## Running minima and maxima -/

theorem updMin_some (m v : ℝ) : Poly.updMin (some m) v = some (min m v) := by
  unfold Poly.updMin
  simp only
  split_ifs with h
  · rw [min_eq_right h.le]
  · rw [min_eq_left (not_lt.mp h)]

theorem updMax_some (m v : ℝ) : Poly.updMax (some m) v = some (max m v) := by
  unfold Poly.updMax
  simp only
  split_ifs with h
  · rw [max_eq_right h.le]
  · rw [max_eq_left (not_lt.mp h)]

theorem foldl_updMin_some (l : List ℝ) (m : ℝ) :
    ∃ r, l.foldl Poly.updMin (some m) = some r ∧ (r = m ∨ r ∈ l) ∧ r ≤ m ∧ ∀ x ∈ l, r ≤ x := by
  induction l generalizing m with
  | nil => exact ⟨m, rfl, Or.inl rfl, le_refl _, by simp⟩
  | cons x l ih =>
    obtain ⟨r, h1, h2, h3, h4⟩ := ih (min m x)
    refine ⟨r, by rw [List.foldl_cons, updMin_some, h1], ?_, h3.trans (min_le_left _ _), ?_⟩
    · rcases h2 with h2 | h2
      · rcases min_choice m x with h | h
        · exact Or.inl (h2.trans h)
        · exact Or.inr (by rw [h2, h]; exact List.mem_cons_self)
      · exact Or.inr (List.mem_cons_of_mem _ h2)
    · intro y hy
      rcases List.mem_cons.mp hy with rfl | hy
      · exact h3.trans (min_le_right _ _)
      · exact h4 y hy

theorem foldl_updMax_some (l : List ℝ) (m : ℝ) :
    ∃ r, l.foldl Poly.updMax (some m) = some r ∧ (r = m ∨ r ∈ l) ∧ m ≤ r ∧ ∀ x ∈ l, x ≤ r := by
  induction l generalizing m with
  | nil => exact ⟨m, rfl, Or.inl rfl, le_refl _, by simp⟩
  | cons x l ih =>
    obtain ⟨r, h1, h2, h3, h4⟩ := ih (max m x)
    refine ⟨r, by rw [List.foldl_cons, updMax_some, h1], ?_, (le_max_left _ _).trans h3, ?_⟩
    · rcases h2 with h2 | h2
      · rcases max_choice m x with h | h
        · exact Or.inl (h2.trans h)
        · exact Or.inr (by rw [h2, h]; exact List.mem_cons_self)
      · exact Or.inr (List.mem_cons_of_mem _ h2)
    · intro y hy
      rcases List.mem_cons.mp hy with rfl | hy
      · exact (le_max_right _ _).trans h3
      · exact h4 y hy

theorem foldl_updMin {l : List ℝ} (h : l ≠ []) :
    ∃ r, l.foldl Poly.updMin none = some r ∧ r ∈ l ∧ ∀ x ∈ l, r ≤ x := by
  cases l with
  | nil => exact absurd rfl h
  | cons a l =>
    obtain ⟨r, h1, h2, h3, h4⟩ := foldl_updMin_some l a
    exact ⟨r, h1, List.mem_cons.mpr h2, fun x hx => (List.mem_cons.mp hx).elim (fun e => e ▸ h3) (h4 x)⟩

theorem foldl_updMax {l : List ℝ} (h : l ≠ []) :
    ∃ r, l.foldl Poly.updMax none = some r ∧ r ∈ l ∧ ∀ x ∈ l, x ≤ r := by
  cases l with
  | nil => exact absurd rfl h
  | cons a l =>
    obtain ⟨r, h1, h2, h3, h4⟩ := foldl_updMax_some l a
    exact ⟨r, h1, List.mem_cons.mpr h2, fun x hx => (List.mem_cons.mp hx).elim (fun e => e ▸ h3) (h4 x)⟩

theorem Poly.foldl_bounds (vs : List (Vec ℝ)) (b : Poly.Bounds ℝ) :
    vs.foldl Poly.boundsStep b = ⟨(vs.map Vec.x).foldl Poly.updMin b.xMin, (vs.map Vec.x).foldl Poly.updMax b.xMax,
      (vs.map Vec.y).foldl Poly.updMin b.yMin, (vs.map Vec.y).foldl Poly.updMax b.yMax⟩ := by
  induction vs generalizing b with
  | nil => rfl
  | cons v vs ih => rw [List.foldl_cons, ih]; rfl

/-! ## C71 -/

/-- The four extreme coordinates are attained and bound all vertices. -/
theorem Poly.boundingBox_spec (p : Poly ℝ) (h : p.vertices ≠ []) :
    ∃ r, p.boundingBox = .ok r ∧ r.Ok ∧ (∀ v ∈ p.vertices, v.pt ∈ r.pts) ∧
      (∃ v ∈ p.vertices, v.x = r.left) ∧ (∃ v ∈ p.vertices, v.x = r.right) ∧
      (∃ v ∈ p.vertices, v.y = r.top) ∧ (∃ v ∈ p.vertices, v.y = r.bottom) := by
  have hx : p.vertices.map Vec.x ≠ [] := by simpa using h
  have hy : p.vertices.map Vec.y ≠ [] := by simpa using h
  obtain ⟨x0, ex0, mx0, lx0⟩ := foldl_updMin hx
  obtain ⟨x1, ex1, mx1, lx1⟩ := foldl_updMax hx
  obtain ⟨y0, ey0, my0, ly0⟩ := foldl_updMin hy
  obtain ⟨y1, ey1, my1, ly1⟩ := foldl_updMax hy
  have hxx : x0 ≤ x1 := lx0 _ mx1
  have hyy : y0 ≤ y1 := ly0 _ my1
  refine ⟨Rect.ofPointSize (Vec.ofXY x0 y0) (Size.ofLW (x1 - x0) (y1 - y0)), ?_, ?_, ?_⟩
  · have hb := Poly.foldl_bounds p.vertices {}
    unfold Poly.boundingBox
    cases hv : p.vertices with
    | nil => exact absurd hv h
    | cons a t =>
      rw [hv] at hb ex0 ex1 ey0 ey1
      simp only [hb, ex0, ex1, ey0, ey1]
  · refine ⟨?_, ?_⟩
    · change 0 ≤ (Size.ofLW (x1 - x0) (y1 - y0)).length
      rw [Size.ofLW_length]; exact abs_nonneg _
    · change 0 ≤ (Size.ofLW (x1 - x0) (y1 - y0)).width
      rw [Size.ofLW_width]; exact abs_nonneg _
  · have el : (Rect.ofPointSize (Vec.ofXY x0 y0) (Size.ofLW (x1 - x0) (y1 - y0))).left = x0 := rfl
    have et : (Rect.ofPointSize (Vec.ofXY x0 y0) (Size.ofLW (x1 - x0) (y1 - y0))).top = y0 := rfl
    have er : (Rect.ofPointSize (Vec.ofXY x0 y0) (Size.ofLW (x1 - x0) (y1 - y0))).right = x1 := by
      unfold Rect.right; rw [el]; change x0 + (Size.ofLW (x1 - x0) (y1 - y0)).length = x1
      rw [Size.ofLW_length, abs_of_nonneg (by linarith)]; ring
    have eb : (Rect.ofPointSize (Vec.ofXY x0 y0) (Size.ofLW (x1 - x0) (y1 - y0))).bottom = y1 := by
      unfold Rect.bottom; rw [et]; change y0 + (Size.ofLW (x1 - x0) (y1 - y0)).width = y1
      rw [Size.ofLW_width, abs_of_nonneg (by linarith)]; ring
    rw [el, er, et, eb]
    refine ⟨?_, List.mem_map.mp mx0, List.mem_map.mp mx1, List.mem_map.mp my0, List.mem_map.mp my1⟩
    intro v hv
    rw [Rect.mem_pts, el, er, et, eb]
    exact ⟨lx0 _ (List.mem_map_of_mem hv), lx1 _ (List.mem_map_of_mem hv), ly0 _ (List.mem_map_of_mem hv),
      ly1 _ (List.mem_map_of_mem hv)⟩

/-- **C71** (partial: non-empty polygons). The bounding box contains every vertex and is contained in every box that
does. -/
theorem C71_bounding_box_partial (p : Poly ℝ) (h : p.vertices ≠ []) :
    ∃ r, p.boundingBox = .ok r ∧ r.Ok ∧ (∀ v ∈ p.vertices, v.pt ∈ r.pts) ∧
      ∀ l r' t b, (∀ v ∈ p.vertices, v.pt ∈ box l r' t b) → r.pts ⊆ box l r' t b := by
  obtain ⟨r, h1, h2, h3, ⟨v1, m1, e1⟩, ⟨v2, m2, e2⟩, ⟨v3, m3, e3⟩, ⟨v4, m4, e4⟩⟩ := p.boundingBox_spec h
  refine ⟨r, h1, h2, h3, ?_⟩
  intro l r' t b hb z hz
  have b1 := hb _ m1; have b2 := hb _ m2; have b3 := hb _ m3; have b4 := hb _ m4
  obtain ⟨z1, z2, z3, z4⟩ := Rect.mem_pts.mp hz
  simp only [box, Set.mem_ofPred_eq, Vec.pt_fst, Vec.pt_snd] at b1 b2 b3 b4 ⊢
  exact ⟨by linarith [b1.1], by linarith [b2.2.1], by linarith [b3.2.2.1], by linarith [b4.2.2.2]⟩

/-- **C71** is false for the empty vertex list: the method raises. -/
theorem C71_refuted : (Poly.ofList ([] : List (Vec ℝ))).boundingBox = .error .exception := rfl

/-- Non-vacuity of C71: a triangle and its box. -/
example : ∃ r, (Poly.ofList [Vec.ofXY (1:ℝ) 0, Vec.ofXY 5 2, Vec.ofXY 3 7]).boundingBox = .ok r ∧
    r.left = 1 ∧ r.right = 5 ∧ r.top = 0 ∧ r.bottom = 7 := by
  obtain ⟨r, h1, h2, h3, h4⟩ := C71_bounding_box_partial
    (Poly.ofList [Vec.ofXY (1:ℝ) 0, Vec.ofXY 5 2, Vec.ofXY 3 7]) (by simp [Poly.ofList])
  simp only [Poly.ofList, List.mem_cons, List.not_mem_nil, or_false, forall_eq_or_imp, forall_eq, Vec.pt_ofXY,
    Rect.mem_pts] at h3
  have h5 := h4 1 5 0 7 (by
    simp only [Poly.ofList, List.mem_cons, List.not_mem_nil, or_false, forall_eq_or_imp, forall_eq, Vec.pt_ofXY]
    norm_num [box])
  have g1 : (r.left, r.top) ∈ box 1 5 0 7 :=
    h5 (Rect.mem_pts.mpr ⟨le_refl _, by simp only; linarith, le_refl _, by simp only; linarith⟩)
  have g2 : (r.right, r.bottom) ∈ box 1 5 0 7 :=
    h5 (Rect.mem_pts.mpr ⟨by simp only; linarith, le_refl _, by simp only; linarith, le_refl _⟩)
  simp only [box, Set.mem_ofPred_eq] at g1 g2
  exact ⟨r, h1, by linarith, by linarith, by linarith, by linarith⟩

/-! ## C72 -/

/-- The shoelace sum of a closed point list. -/
def Spec.shoelace (l : List Pt) : ℝ := ((cyclicPairs l).map (fun e => cross e.1 e.2)).sum

theorem foldl_add_sum {γ : Type} (f : γ → ℝ) (l : List γ) (a : ℝ) :
    l.foldl (fun acc e => acc + f e) a = a + (l.map f).sum := by
  induction l generalizing a with
  | nil => simp
  | cons x l ih => rw [List.foldl_cons, ih, List.map_cons, List.sum_cons]; ring

/-- **C72** `double_signed_area` is the shoelace sum, also for fewer than three vertices. -/
theorem C72_shoelace (p : Poly ℝ) : p.doubleSignedArea = shoelace p.pts := by
  have h : shoelace p.pts = ((cyclicPairs p.vertices).map (fun e => e.1.x * e.2.y - e.2.x * e.1.y)).sum := by
    unfold shoelace Poly.pts
    rw [cyclicPairs_map, List.map_map]
    congr 1
    apply List.map_congr_left
    intro e _
    simp only [Function.comp, cross, Prod.map, Vec.pt_fst, Vec.pt_snd]; ring
  unfold Poly.doubleSignedArea
  split_ifs with hl
  · rw [h]
    rcases hv : p.vertices with _ | ⟨a, _ | ⟨b, _ | ⟨c, t⟩⟩⟩
    · simp
    · simp [cyclicPairs]
    · simp [cyclicPairs]
    · rw [hv] at hl; simp only [List.length_cons] at hl; omega
  · rw [foldl_add_sum, h, num_real, Nat.cast_zero, zero_add]

/-- **C72** invariance under the choice of the first vertex. -/
theorem C72_rotate (l : List (Vec ℝ)) (n : ℕ) :
    (Poly.ofList (l.rotate n)).doubleSignedArea = (Poly.ofList l).doubleSignedArea := by
  rw [C72_shoelace, C72_shoelace]
  unfold shoelace Poly.pts Poly.ofList
  simp only [List.map_rotate]
  exact ((cyclicPairs_rotate_perm _ _).map _).sum_eq

theorem sum_fst_eq_snd (l : List Pt) (f : Pt → ℝ) :
    ((cyclicPairs l).map (fun e => f e.1)).sum = ((cyclicPairs l).map (fun e => f e.2)).sum := by
  have h1 : (cyclicPairs l).map (fun e => f e.1) = l.map f := by
    conv_rhs => rw [← map_fst_cyclicPairs l]
    rw [List.map_map]; rfl
  have h2 : (cyclicPairs l).map (fun e => f e.2) = (l.rotate 1).map f := by
    rw [← map_snd_cyclicPairs l, List.map_map]; rfl
  rw [h1, h2]
  exact ((List.rotate_perm l 1).symm.map _).sum_eq

/-- **C72** invariance under translation. -/
theorem C72_translate (l : List (Vec ℝ)) (w : Vec ℝ) :
    (Poly.ofList (l.map (fun v => v.add w))).doubleSignedArea = (Poly.ofList l).doubleSignedArea := by
  rw [C72_shoelace, C72_shoelace]
  unfold shoelace Poly.pts Poly.ofList
  simp only [List.map_map]
  have e : (Vec.pt ∘ fun v : Vec ℝ => v.add w) = (fun z : Pt => z + w.pt) ∘ Vec.pt := rfl
  rw [e, ← List.map_map, cyclicPairs_map, List.map_map]
  set L := l.map Vec.pt
  have h : ∀ E : List (Pt × Pt), (E.map ((fun e : Pt × Pt => cross e.1 e.2) ∘ Prod.map (fun z : Pt => z + w.pt)
      (fun z : Pt => z + w.pt))).sum = (E.map (fun e => cross e.1 e.2)).sum +
      (E.map (fun e => cross e.1 w.pt)).sum - (E.map (fun e => cross e.2 w.pt)).sum := by
    intro E
    induction E with
    | nil => simp
    | cons e E ih =>
      simp only [List.map_cons, List.sum_cons, ih]
      simp only [Function.comp, Prod.map, cross, Prod.fst_add, Prod.snd_add]; ring
  rw [h, sum_fst_eq_snd L (fun z => cross z w.pt)]; ring

/-- **C72** reversal changes the sign. -/
theorem C72_reverse (l : List (Vec ℝ)) :
    (Poly.ofList l.reverse).doubleSignedArea = -(Poly.ofList l).doubleSignedArea := by
  rw [C72_shoelace, C72_shoelace]
  unfold shoelace Poly.pts Poly.ofList
  simp only [List.map_reverse]
  rw [((cyclicPairs_reverse_perm _).map _).sum_eq, List.map_map]
  generalize cyclicPairs (l.map Vec.pt) = E
  induction E with
  | nil => simp
  | cons e E ih =>
    simp only [List.map_cons, List.sum_cons, ih]
    simp only [Function.comp, Prod.swap, cross]; ring

/-- **C72** three vertices: twice the signed area of the triangle. -/
theorem C72_triangle (a b c : Vec ℝ) : (Poly.ofList [a, b, c]).doubleSignedArea = area2 a.pt b.pt c.pt := by
  rw [C72_shoelace]
  simp [shoelace, Poly.pts, Poly.ofList, cyclicPairs, cross, area2]; ring

/-- **C72** additivity along a diagonal from `a` to `b`. -/
theorem C72_diagonal (a b : Vec ℝ) (l₁ l₂ : List (Vec ℝ)) :
    (Poly.ofList (a :: l₁ ++ b :: l₂)).doubleSignedArea =
      (Poly.ofList (a :: l₁ ++ [b])).doubleSignedArea + (Poly.ofList (b :: l₂ ++ [a])).doubleSignedArea := by
  rw [C72_shoelace, C72_shoelace, C72_shoelace]
  unfold shoelace Poly.pts Poly.ofList
  simp only [List.map_cons, List.map_append, List.cons_append, List.map_nil]
  set a := a.pt; set b := b.pt; set m₁ := l₁.map Vec.pt; set m₂ := l₂.map Vec.pt
  rw [cyclicPairs_eq_chain, cyclicPairs_eq_chain, cyclicPairs_eq_chain]
  have e1 : a :: (m₁ ++ b :: m₂ ++ [a]) = (a :: m₁) ++ b :: (m₂ ++ [a]) := by simp
  have e2 : a :: (m₁ ++ [b] ++ [a]) = (a :: m₁) ++ b :: [a] := by simp
  have e3 : b :: (m₂ ++ [a] ++ [b]) = (b :: m₂) ++ a :: [b] := by simp
  rw [e1, e2, e3, chainPairs_append, chainPairs_append (a :: m₁) b [a], chainPairs_append (b :: m₂) a [b]]
  simp only [List.map_append, List.sum_append, chainPairs_cons_cons, chainPairs_single, List.map_cons, List.map_nil,
    List.sum_cons, List.sum_nil, List.cons_append]
  simp only [cross]; ring

/-- **C72** `area` is half the absolute value, and at most one orientation holds. -/
theorem C72_area (p : Poly ℝ) : p.area = |p.doubleSignedArea| / 2 ∧
    (p.isCounterClockwise = true ↔ 0 < p.doubleSignedArea) ∧ (p.isClockwise = true ↔ p.doubleSignedArea < 0) ∧
    ¬ (p.isCounterClockwise = true ∧ p.isClockwise = true) := by
  have h1 : p.isCounterClockwise = true ↔ 0 < p.doubleSignedArea := by
    unfold Poly.isCounterClockwise; rw [decide_eq_true_eq, num_real, Nat.cast_zero]
  have h2 : p.isClockwise = true ↔ p.doubleSignedArea < 0 := by
    unfold Poly.isClockwise; rw [decide_eq_true_eq, num_real, Nat.cast_zero]
  refine ⟨?_, h1, h2, ?_⟩
  · unfold Poly.area
    rw [fabs_real, num_real, num_real, abs_mul]; norm_num; ring
  · rw [h1, h2]; rintro ⟨a, b⟩; linarith

/-- Non-vacuity of C72: an L-shaped hexagon of area 3. -/
example : (Poly.ofList [Vec.ofXY (0:ℝ) 0, Vec.ofXY 2 0, Vec.ofXY 2 1, Vec.ofXY 1 1, Vec.ofXY 1 2,
    Vec.ofXY 0 2]).area = 3 := by
  rw [(C72_area _).1, C72_shoelace]
  norm_num [shoelace, Poly.pts, Poly.ofList, cyclicPairs, cross]

/-! ## C73, C74 -/

/-- Left of the bounding box every closed polygon is crossed an even number of times, elsewhere outside not at all. -/
theorem even_outside {l : List Pt} {p : Pt} {x0 x1 y0 y1 : ℝ} (hb : ∀ z ∈ l, z ∈ box x0 x1 y0 y1)
    (hp : p ∉ box x0 x1 y0 y1) : ¬ Odd (Spec.count (fun e : Pt × Pt => Crosses p e.1 e.2) (cyclicPairs l)) := by
  rw [Nat.not_odd_iff_even]
  have hseg : ∀ e ∈ cyclicPairs l, ∀ z ∈ segment ℝ e.1 e.2, z ∈ box x0 x1 y0 y1 := by
    intro e he z hz
    obtain ⟨a1, a2, a3, a4⟩ := hb _ (fst_mem_of_cyclicPairs he)
    obtain ⟨b1, b2, b3, b4⟩ := hb _ (snd_mem_of_cyclicPairs he)
    obtain ⟨t, t0, t1, hx, hy⟩ := mem_seg.mp hz
    refine ⟨?_, ?_, ?_, ?_⟩
    · rw [hx]; nlinarith
    · rw [hx]; nlinarith
    · rw [hy]; nlinarith
    · rw [hy]; nlinarith
  by_cases hl : p.1 < x0
  · have : Spec.count (fun e : Pt × Pt => Crosses p e.1 e.2) (cyclicPairs l) =
        Spec.count (fun e : Pt × Pt => (e.1.2 ≤ p.2 ∧ p.2 < e.2.2) ∨ (e.2.2 ≤ p.2 ∧ p.2 < e.1.2)) (cyclicPairs l) := by
      apply count_congr
      intro e he
      unfold Crosses
      refine and_iff_left_of_imp ?_
      intro hs
      have hne : e.1.2 ≠ e.2.2 := by rcases hs with h | h <;> linarith
      have hbt : Btw e.1.2 e.2.2 p.2 := by
        rcases hs with h | h
        · exact Or.inl ⟨h.1, h.2.le⟩
        · exact Or.inr ⟨h.1, h.2.le⟩
      obtain ⟨g1, g2⟩ := (seg_at_height hne hbt).mpr rfl
      exact ⟨_, g1, g2, hl.le.trans (hseg e he _ g1).1⟩
    rw [this, count_or _ (by rintro e _ ⟨h1, h2⟩; linarith), up_eq_down]
    exact ⟨_, rfl⟩
  · rw [count_eq_zero]
    · exact ⟨0, rfl⟩
    · rintro e he ⟨_, z, hz, hz2, hz1⟩
      obtain ⟨c1, c2, c3, c4⟩ := hseg e he z hz
      exact hp ⟨not_lt.mp hl, hz1.trans c2, hz2 ▸ c3, hz2 ▸ c4⟩

theorem param_le {a b t X : ℝ} (t0 : 0 ≤ t) (t1 : t ≤ 1) (ha : a ≤ X) (hb : b ≤ X) : a + t * (b - a) ≤ X := by
  nlinarith [mul_nonneg t0 (sub_nonneg.mpr hb), mul_nonneg (sub_nonneg.mpr t1) (sub_nonneg.mpr ha)]

/-- The virtual half line is long enough and the exceptions of the loop amount to the half-open crossing rule. -/
theorem Poly.toggle_iff {p v0 p0 p1 : Vec ℝ} {bb : Rect ℝ} (hok : bb.Ok) (hp : p.pt ∈ bb.pts) (h0 : p0.pt ∈ bb.pts)
    (h1 : p1.pt ∈ bb.pts) :
    ((Poly.halfLine bb v0 p).existIntersection (Seg.ofPoints p0 p1) = true ∧
      ((p0.y == p.y || p1.y == p.y) && (p0.y == p1.y || decide (p0.y < p.y) || decide (p1.y < p.y))) = false) ↔
    Crosses p.pt p0.pt p1.pt := by
  have hm : (Poly.halfLine bb v0 p).existIntersection (Seg.ofPoints p0 p1) = true ↔
      (segment ℝ p0.pt p1.pt ∩ rayRight p.pt).Nonempty := by
    rw [C30_exist_intersection]
    set X := p.x + ((bb.right - bb.left + bb.bottom - bb.top) + (v0.sub p).r) * 3 with hX
    have e1 : (Poly.halfLine bb v0 p).pts = segment ℝ p.pt (X, p.y) := by
      rw [hX]; unfold Poly.halfLine Seg.pts Seg.ofPoints
      simp only [num_real, Nat.cast_ofNat]; rfl
    have e2 : (Seg.ofPoints p0 p1).pts = segment ℝ p0.pt p1.pt := rfl
    rw [e1, e2]
    have hr : 0 ≤ (v0.sub p).r := by rw [Vec.r_real]; exact Real.sqrt_nonneg _
    have hw : bb.right - bb.left = bb.size.length := by unfold Rect.right; ring
    have hh : bb.bottom - bb.top = bb.size.width := by unfold Rect.bottom; ring
    obtain ⟨ok1, ok2⟩ := hok
    have hXr : bb.right ≤ X := by
      have := hp.1
      simp only [Vec.pt_fst] at this
      rw [hX]; linarith
    have hpX : p.x ≤ X := (hp.2.1 : p.x ≤ bb.right).trans hXr
    clear_value X
    constructor
    · rintro ⟨z, hz1, hz2⟩
      obtain ⟨t, t0, t1, hx, hy⟩ := mem_seg.mp hz1
      refine ⟨z, hz2, ?_, ?_⟩
      · rw [hy]; simp
      · rw [hx]; simp only [Vec.pt_fst]; nlinarith
    · rintro ⟨z, hz, hz2, hz1⟩
      refine ⟨z, ?_, hz⟩
      have hzX : z.1 ≤ X := by
        obtain ⟨t, t0, t1, hx, hy⟩ := mem_seg.mp hz
        have a := (h0.2.1 : p0.x ≤ bb.right); have b := (h1.2.1 : p1.x ≤ bb.right)
        rw [hx]; simp only [Vec.pt_fst]
        exact param_le t0 t1 (a.trans hXr) (b.trans hXr)
      simp only [Vec.pt_fst, Vec.pt_snd] at hz1 hz2
      rcases eq_or_lt_of_le hpX with he | hlt
      · have : z = p.pt := Prod.ext (by simp only [Vec.pt_fst]; linarith) hz2
        rw [this]; exact left_mem_segment ℝ _ _
      · refine mem_seg.mpr ⟨(z.1 - p.x) / (X - p.x), div_nonneg (by linarith) (by linarith),
          (div_le_one (by linarith)).mpr (by linarith), ?_, ?_⟩
        · have : X - p.x ≠ 0 := by linarith
          simp only [Vec.pt_fst]; field_simp; ring
        · simp only [Vec.pt_snd, sub_self, mul_zero, add_zero]; exact hz2
  rw [hm]
  unfold Crosses
  rw [and_comm]
  refine and_congr_left ?_
  rintro ⟨z, hz, hz2, _⟩
  have hb : Btw p0.y p1.y p.y := by
    obtain ⟨t, t0, t1, _, hy⟩ := mem_seg.mp hz
    have := btw_of_param (a := p0.y) (b := p1.y) t0 t1
    rw [show p0.y + t * (p1.y - p0.y) = p.y from by
      simp only [Vec.pt_snd] at hy hz2; linarith] at this
    exact this
  simp only [Bool.and_eq_false_iff, Bool.or_eq_false_iff, beq_eq_false_iff_ne, decide_eq_false_iff_not, Vec.pt_snd,
    not_lt, ne_eq]
  constructor
  · rintro (⟨a, b⟩ | ⟨⟨a, b⟩, c⟩)
    · rcases hb with ⟨h, h'⟩ | ⟨h, h'⟩
      · exact Or.inl ⟨h, lt_of_le_of_ne h' (Ne.symm b)⟩
      · exact Or.inr ⟨h, lt_of_le_of_ne h' (Ne.symm a)⟩
    · rcases hb with ⟨h, h'⟩ | ⟨h, h'⟩
      · refine Or.inl ⟨h, lt_of_le_of_ne h' ?_⟩
        intro e; exact a (by linarith)
      · refine Or.inr ⟨h, lt_of_le_of_ne h' ?_⟩
        intro e; exact a (by linarith)
  · rintro (⟨h, h'⟩ | ⟨h, h'⟩)
    · by_cases e : p0.y = p.y
      · exact Or.inr ⟨⟨by rw [e]; exact h'.ne, e.ge⟩, h'.le⟩
      · exact Or.inl ⟨e, h'.ne'⟩
    · by_cases e : p1.y = p.y
      · exact Or.inr ⟨⟨by rw [e]; exact h'.ne', h'.le⟩, e.ge⟩
      · exact Or.inl ⟨h'.ne', e⟩

open Classical in
theorem Poly.containsLoop_parity {p v0 : Vec ℝ} {allow : Bool} {bb : Rect ℝ} (hok : bb.Ok) (hp : p.pt ∈ bb.pts)
    (E : List (Vec ℝ × Vec ℝ)) (hE : ∀ e ∈ E, e.1.pt ∈ bb.pts ∧ e.2.pt ∈ bb.pts)
    (h1 : allow = false → ∀ e ∈ E, (Seg.ofPoints e.1 e.2).onSegment p = false)
    (h2 : allow = true → ∀ e ∈ E, p.eq e.1 = false) (inside : Bool) :
    Poly.containsLoop p allow (Poly.halfLine bb v0 p) E inside =
      (inside ^^ decide (Odd (Spec.count (fun e : Vec ℝ × Vec ℝ => Crosses p.pt e.1.pt e.2.pt) E))) := by
  induction E generalizing inside with
  | nil => simp [Poly.containsLoop]
  | cons e E ih =>
    obtain ⟨p0, p1⟩ := e
    have ih := ih (fun e he => hE e (List.mem_cons_of_mem _ he)) (fun h e he => h1 h e (List.mem_cons_of_mem _ he))
      (fun h e he => h2 h e (List.mem_cons_of_mem _ he))
    obtain ⟨b0, b1⟩ := hE _ List.mem_cons_self
    have ht := Poly.toggle_iff (v0 := v0) hok hp b0 b1
    have g1 : (!allow && (Seg.ofPoints p0 p1).onSegment p) = false := by
      cases ha : allow with
      | false => simpa using h1 ha _ List.mem_cons_self
      | true => rfl
    have g2 : (allow && p.eq p0) = false := by
      cases ha : allow with
      | true => simpa using h2 ha _ List.mem_cons_self
      | false => rfl
    rw [Poly.containsLoop, g1, g2]
    simp only [Bool.false_eq_true, if_false]
    rw [count_cons]
    by_cases hc : Crosses p.pt p0.pt p1.pt
    · obtain ⟨k1, k2⟩ := ht.mpr hc
      rw [k1, k2]
      simp only [if_true, Bool.false_eq_true, if_false, if_pos hc, ih]
      simp only [Nat.odd_add_one]
      by_cases ho : Odd (Spec.count (fun e : Vec ℝ × Vec ℝ => Crosses p.pt e.1.pt e.2.pt) E) <;>
        cases inside <;> simp [ho]
    · simp only [if_neg hc, add_zero]
      have : ¬ ((Poly.halfLine bb v0 p).existIntersection (Seg.ofPoints p0 p1) = true ∧ _) := fun h => hc (ht.mp h)
      rw [not_and, Bool.not_eq_false] at this
      by_cases hx : (Poly.halfLine bb v0 p).existIntersection (Seg.ofPoints p0 p1) = true
      · rw [hx, this hx]; simp only [if_true, ih]
      · rw [if_neg hx, ih]

theorem Poly.containsLoop_vertex {p : Vec ℝ} {line : Seg ℝ} (E : List (Vec ℝ × Vec ℝ))
    (h : ∃ e ∈ E, p.eq e.1 = true) (inside : Bool) : Poly.containsLoop p true line E inside = true := by
  induction E generalizing inside with
  | nil => simp at h
  | cons e E ih =>
    obtain ⟨p0, p1⟩ := e
    rw [Poly.containsLoop]
    simp only [Bool.not_true, Bool.false_and, Bool.false_eq_true, if_false, Bool.true_and]
    by_cases h0 : p.eq p0 = true
    · rw [if_pos h0]
    · have h' : ∃ e ∈ E, p.eq e.1 = true := by
        obtain ⟨e, he, h⟩ := h
        rcases List.mem_cons.mp he with rfl | he
        · exact absurd h h0
        · exact ⟨e, he, h⟩
      rw [if_neg h0]
      split_ifs <;> exact ih h' _

theorem Poly.containsLoop_on {p : Vec ℝ} {line : Seg ℝ} (E : List (Vec ℝ × Vec ℝ))
    (h : ∃ e ∈ E, (Seg.ofPoints e.1 e.2).onSegment p = true) (inside : Bool) :
    Poly.containsLoop p false line E inside = false := by
  induction E generalizing inside with
  | nil => simp at h
  | cons e E ih =>
    obtain ⟨p0, p1⟩ := e
    rw [Poly.containsLoop]
    simp only [Bool.not_false, Bool.true_and, Bool.false_eq_true, if_false, Bool.false_and]
    by_cases h0 : (Seg.ofPoints p0 p1).onSegment p = true
    · rw [if_pos h0]
    · have h' : ∃ e ∈ E, (Seg.ofPoints e.1 e.2).onSegment p = true := by
        obtain ⟨e, he, h⟩ := h
        rcases List.mem_cons.mp he with rfl | he
        · exact absurd h h0
        · exact ⟨e, he, h⟩
      rw [if_neg h0]
      split_ifs <;> exact ih h' _

theorem Vec.eq_iff_pt {v w : Vec ℝ} : v.eq w = true ↔ v.pt = w.pt := by
  unfold Vec.eq
  rw [Bool.and_eq_true, beq_iff_eq, beq_iff_eq, Vec.pt_eq_iff]

/-- Number of edges of the polygon crossed by the half line from `z` to the right. -/
noncomputable def Poly.crossings (poly : Poly ℝ) (z : Pt) : ℕ :=
  Spec.count (fun e : Pt × Pt => Crosses z e.1 e.2) (cyclicPairs poly.pts)

theorem Poly.crossings_eq (poly : Poly ℝ) (z : Pt) : poly.crossings z =
    Spec.count (fun e : Vec ℝ × Vec ℝ => Crosses z e.1.pt e.2.pt) (cyclicPairs poly.vertices) := by
  unfold Poly.crossings Poly.pts
  rw [cyclicPairs_map, count_map]; rfl

/-- **C73**, the general form for `allow_on_segment = True`: a point is contained exactly when it is a vertex or the
half line to the right crosses an odd number of edges (an edge belongs to the heights from its lower end, included, to
its upper end, excluded).  All polygons, all points. -/
theorem C73_parity (poly : Poly ℝ) (p : Vec ℝ) :
    poly.contains p true = true ↔ p.pt ∈ poly.pts ∨ Odd (poly.crossings p.pt) := by
  unfold Poly.contains
  rcases hv : poly.vertices with _ | ⟨v0, _ | ⟨v1, vs⟩⟩
  · simp [Poly.crossings, Poly.pts, hv]
  · have : Poly.crossings poly p.pt = 0 := by
      apply count_eq_zero
      simp only [Poly.pts, hv, List.map_cons, List.map_nil, cyclicPairs, List.zip, List.nil_append, List.zipWith_cons_cons,
        List.zipWith_nil_left, List.mem_cons, List.not_mem_nil, or_false, forall_eq]
      rintro ⟨h | h, _⟩ <;> linarith
    simp only [Bool.true_and, Vec.eq_iff_pt, this, Poly.pts, hv, List.map_cons, List.map_nil, List.mem_cons,
      List.not_mem_nil, or_false]
    constructor
    · intro h; exact Or.inl h.symm
    · rintro (h | h)
      · exact h.symm
      · simp at h
  · obtain ⟨bb, h1, hok, h3, _⟩ := poly.boundingBox_spec (by rw [hv]; simp)
    simp only [h1]
    by_cases hin : p.pt ∈ bb.pts
    · rw [if_neg (by simp [(C59_contains_partial bb hok p).1.mpr hin])]
      rw [← hv]
      by_cases hx : p.pt ∈ poly.pts
      · simp only [hx, true_or, iff_true]
        apply Poly.containsLoop_vertex
        obtain ⟨v, hvm, hve⟩ := List.mem_map.mp hx
        rw [← map_fst_cyclicPairs poly.vertices] at hvm
        obtain ⟨e, he, rfl⟩ := List.mem_map.mp hvm
        exact ⟨e, he, Vec.eq_iff_pt.mpr hve.symm⟩
      · rw [Poly.containsLoop_parity hok hin _
          (fun e he => ⟨h3 _ (fst_mem_of_cyclicPairs he), h3 _ (snd_mem_of_cyclicPairs he)⟩) (by simp), poly.crossings_eq]
        · simp [hx]
        · intro _ e he
          rw [← Bool.not_eq_true, Vec.eq_iff_pt]
          intro h; apply hx; rw [h]
          exact List.mem_map_of_mem (fst_mem_of_cyclicPairs he)
    · have hb : ∀ z ∈ poly.pts, z ∈ bb.pts := by
        intro z hz
        obtain ⟨v, hvm, rfl⟩ := List.mem_map.mp hz
        exact h3 v hvm
      have hev := even_outside (l := poly.pts) hb hin
      rw [if_pos (by
        rw [Bool.not_eq_true', ← Bool.not_eq_true, (C59_contains_partial bb hok p).1]; exact hin)]
      simp only [Bool.false_eq_true, false_iff, not_or]
      exact ⟨fun h => hin (hb _ h), hev⟩

/-- **C73**, the general form for `allow_on_segment = False`. -/
theorem C73_parity_strict (poly : Poly ℝ) (p : Vec ℝ) :
    poly.contains p false = true ↔
      (∀ e ∈ cyclicPairs poly.vertices, (Seg.ofPoints e.1 e.2).onSegment p = false) ∧ Odd (poly.crossings p.pt) := by
  unfold Poly.contains
  rcases hv : poly.vertices with _ | ⟨v0, _ | ⟨v1, vs⟩⟩
  · simp [Poly.crossings, Poly.pts, hv]
  · have : Poly.crossings poly p.pt = 0 := by
      apply count_eq_zero
      simp only [Poly.pts, hv, List.map_cons, List.map_nil, cyclicPairs, List.zip, List.nil_append, List.zipWith_cons_cons,
        List.zipWith_nil_left, List.mem_cons, List.not_mem_nil, or_false, forall_eq]
      rintro ⟨h | h, _⟩ <;> linarith
    simp [this]
  · obtain ⟨bb, h1, hok, h3, _⟩ := poly.boundingBox_spec (by rw [hv]; simp)
    simp only [h1]
    by_cases hin : p.pt ∈ bb.pts
    · rw [if_neg (by simp [(C59_contains_partial bb hok p).1.mpr hin])]
      rw [← hv]
      by_cases hx : ∀ e ∈ cyclicPairs poly.vertices, (Seg.ofPoints e.1 e.2).onSegment p = false
      · rw [Poly.containsLoop_parity hok hin _
          (fun e he => ⟨h3 _ (fst_mem_of_cyclicPairs he), h3 _ (snd_mem_of_cyclicPairs he)⟩) (fun _ => hx) (by simp),
          poly.crossings_eq]
        simp only [Bool.false_xor, decide_eq_true_eq]
        exact ⟨fun h => ⟨hx, h⟩, fun h => h.2⟩
      · rw [Poly.containsLoop_on _ (by push Not at hx; simpa using hx)]
        simp only [Bool.false_eq_true, false_iff, not_and]
        intro h; exact absurd h hx
    · have hb : ∀ z ∈ poly.pts, z ∈ bb.pts := by
        intro z hz
        obtain ⟨v, hvm, rfl⟩ := List.mem_map.mp hz
        exact h3 v hvm
      have hev := even_outside (l := poly.pts) hb hin
      rw [if_pos (by
        rw [Bool.not_eq_true', ← Bool.not_eq_true, (C59_contains_partial bb hok p).1]; exact hin)]
      simp only [Bool.false_eq_true, false_iff, not_and]
      exact fun _ => hev

/-- Off the outline the crossing rule of an edge is: the half line just above `p` meets the edge. -/
theorem crosses_eventually {p a b : Pt} (h : p ∉ segment ℝ a b) :
    ∀ᶠ ε : ℝ in nhdsWithin 0 (Set.Ioi 0),
      (Crosses p a b ↔ (segment ℝ a b ∩ rayRight (p.1, p.2 + ε)).Nonempty) := by
  have hsmall : ∀ c : ℝ, 0 < c → ∀ᶠ ε : ℝ in nhdsWithin 0 (Set.Ioi 0), 0 < ε ∧ ε < c := by
    intro c hc
    filter_upwards [Ioo_mem_nhdsGT hc] with ε he using he
  have hcont : ∀ c : ℝ, 0 < c * area2 a b p → ∀ᶠ ε : ℝ in nhdsWithin 0 (Set.Ioi 0), 0 < c * area2 a b (p.1, p.2 + ε) := by
    intro c hc
    have hf : Continuous (fun ε : ℝ => c * area2 a b (p.1, p.2 + ε)) := by unfold area2; fun_prop
    have := hf.tendsto 0
    simp only [add_zero] at this
    exact (this.eventually_const_lt hc).filter_mono nhdsWithin_le_nhds
  have hnone : ∀ q : Pt, (a.2 < q.2 ∧ b.2 < q.2) ∨ (q.2 < a.2 ∧ q.2 < b.2) → ¬ (segment ℝ a b ∩ rayRight q).Nonempty := by
    rintro q hq ⟨z, hz, hz2, _⟩
    obtain ⟨t, t0, t1, _, hy⟩ := mem_seg.mp hz
    rw [hz2] at hy
    rcases hq with ⟨q1, q2⟩ | ⟨q1, q2⟩
    · nlinarith [mul_nonneg t0 (sub_nonneg.mpr q2.le), mul_nonneg (sub_nonneg.mpr t1) (sub_nonneg.mpr q1.le)]
    · nlinarith [mul_nonneg t0 (sub_nonneg.mpr q2.le), mul_nonneg (sub_nonneg.mpr t1) (sub_nonneg.mpr q1.le)]
  have hoff : (a.2 ≤ p.2 ∧ p.2 < b.2) ∨ (b.2 ≤ p.2 ∧ p.2 < a.2) → area2 a b p ≠ 0 := by
    intro hs h0
    have hne : a.2 ≠ b.2 := by rcases hs with h | h <;> linarith
    have hbt : Btw a.2 b.2 p.2 := by
      rcases hs with h | h
      · exact Or.inl ⟨h.1, h.2.le⟩
      · exact Or.inr ⟨h.1, h.2.le⟩
    have hne' : b.2 - a.2 ≠ 0 := sub_ne_zero.mpr hne.symm
    refine h ((seg_at_height (z := p) hne hbt).mpr (Prod.ext ?_ rfl)).1
    unfold area2 at h0
    simp only; field_simp; linarith
  rw [crosses_iff]
  by_cases ha : p.2 < a.2 <;> by_cases hb : p.2 < b.2
  · filter_upwards [hsmall (a.2 - p.2) (by linarith), hsmall (b.2 - p.2) (by linarith)] with ε h1 h2
    constructor
    · rintro (h | h) <;> linarith
    · intro h; exact absurd h (hnone _ (Or.inr ⟨by simp only; linarith, by simp only; linarith⟩))
  · push Not at hb
    have hne := hoff (Or.inr ⟨hb, ha⟩)
    rcases lt_or_gt_of_ne hne with hlt | hgt
    · filter_upwards [hsmall (a.2 - p.2) (by linarith), hcont (-1) (by linarith)] with ε h1 h2
      rw [meets_ray_down (show b.2 ≤ p.2 + ε by linarith) (show p.2 + ε < a.2 by linarith)]
      exact ⟨fun _ => by linarith, fun _ => Or.inr ⟨hb, ha, hlt.le⟩⟩
    · filter_upwards [hsmall (a.2 - p.2) (by linarith), hcont 1 (by linarith)] with ε h1 h2
      rw [meets_ray_down (show b.2 ≤ p.2 + ε by linarith) (show p.2 + ε < a.2 by linarith)]
      constructor
      · rintro (h | h) <;> linarith
      · intro h; linarith
  · push Not at ha
    have hne := hoff (Or.inl ⟨ha, hb⟩)
    rcases lt_or_gt_of_ne hne with hlt | hgt
    · filter_upwards [hsmall (b.2 - p.2) (by linarith), hcont (-1) (by linarith)] with ε h1 h2
      rw [meets_ray_up (show a.2 ≤ p.2 + ε by linarith) (show p.2 + ε < b.2 by linarith)]
      constructor
      · rintro (h | h) <;> linarith
      · intro h; linarith
    · filter_upwards [hsmall (b.2 - p.2) (by linarith), hcont 1 (by linarith)] with ε h1 h2
      rw [meets_ray_up (show a.2 ≤ p.2 + ε by linarith) (show p.2 + ε < b.2 by linarith)]
      exact ⟨fun _ => by linarith, fun _ => Or.inl ⟨ha, hb, hgt.le⟩⟩
  · push Not at ha hb
    filter_upwards [self_mem_nhdsWithin] with ε h1
    have h1 : 0 < ε := h1
    constructor
    · rintro (h | h) <;> linarith
    · intro h; exact absurd h (hnone _ (Or.inl ⟨by simp only; linarith, by simp only; linarith⟩))

/-- **C73** For a point off the outline, `contains(p)` is True exactly when the half line to the right from just above
`p` meets an odd number of edges (all polygons). -/
theorem C73_even_odd (poly : Poly ℝ) (p : Vec ℝ) (h : p.pt ∉ outline poly.pts) :
    poly.contains p true = true ↔ ∀ᶠ ε : ℝ in nhdsWithin 0 (Set.Ioi 0), Odd (Spec.count
      (fun e : Pt × Pt => (segment ℝ e.1 e.2 ∩ rayRight (p.x, p.y + ε)).Nonempty) (cyclicPairs poly.pts)) := by
  have hv : p.pt ∉ poly.pts := by
    intro hm
    rw [← map_fst_cyclicPairs poly.pts] at hm
    obtain ⟨e, he, hz⟩ := List.mem_map.mp hm
    exact h ⟨e, he, hz ▸ left_mem_segment ℝ _ _⟩
  have hall : ∀ᶠ ε : ℝ in nhdsWithin 0 (Set.Ioi 0), ∀ e ∈ {e | e ∈ cyclicPairs poly.pts},
      (Crosses p.pt e.1 e.2 ↔ (segment ℝ e.1 e.2 ∩ rayRight (p.x, p.y + ε)).Nonempty) := by
    rw [(List.finite_toSet _).eventually_all]
    intro e he
    exact crosses_eventually (fun hz => h ⟨e, he, hz⟩)
  have hcnt : ∀ᶠ ε : ℝ in nhdsWithin 0 (Set.Ioi 0), poly.crossings p.pt = Spec.count
      (fun e : Pt × Pt => (segment ℝ e.1 e.2 ∩ rayRight (p.x, p.y + ε)).Nonempty) (cyclicPairs poly.pts) := by
    filter_upwards [hall] with ε he
    exact count_congr he
  rw [C73_parity]
  constructor
  · rintro (hm | ho)
    · exact absurd hm hv
    · filter_upwards [hcnt] with ε he
      rw [← he]; exact ho
  · intro hev
    obtain ⟨ε, h1, h2⟩ := (hcnt.and hev).exists
    exact Or.inr (h1 ▸ h2)

/-- **C73** If no vertex is at the height of `p`, the half line from `p` itself counts. -/
theorem C73_generic (poly : Poly ℝ) (p : Vec ℝ) (h : ∀ v ∈ poly.vertices, v.y ≠ p.y) :
    poly.contains p true = true ↔ Odd (Spec.count
      (fun e : Pt × Pt => (segment ℝ e.1 e.2 ∩ rayRight p.pt).Nonempty) (cyclicPairs poly.pts)) := by
  have hh : ∀ z ∈ poly.pts, z.2 ≠ p.y := by
    intro z hz
    obtain ⟨v, hv, rfl⟩ := List.mem_map.mp hz
    exact h v hv
  rw [C73_parity]
  have hv : p.pt ∉ poly.pts := fun hm => hh _ hm rfl
  simp only [hv, false_or]
  unfold Poly.crossings
  rw [count_congr]
  intro e he
  unfold Crosses
  refine and_iff_right_of_imp ?_
  rintro ⟨z, hz, hz2, _⟩
  obtain ⟨t, t0, t1, _, hy⟩ := mem_seg.mp hz
  have h1 : e.1.2 ≠ p.pt.2 := hh _ (fst_mem_of_cyclicPairs he)
  have h2 : e.2.2 ≠ p.pt.2 := hh _ (snd_mem_of_cyclicPairs he)
  have := btw_of_param (a := e.1.2) (b := e.2.2) t0 t1
  rw [← hy, hz2] at this
  rcases this with ⟨g1, g2⟩ | ⟨g1, g2⟩
  · exact Or.inl ⟨g1, lt_of_le_of_ne g2 h2.symm⟩
  · exact Or.inr ⟨g1, lt_of_le_of_ne g2 h1.symm⟩

/-- **C73** The answer does not depend on the first vertex (all points, on the outline too). -/
theorem C73_rotate (l : List (Vec ℝ)) (n : ℕ) (p : Vec ℝ) :
    (Poly.ofList (l.rotate n)).contains p true = (Poly.ofList l).contains p true := by
  rw [Bool.eq_iff_iff, C73_parity, C73_parity]
  unfold Poly.crossings Poly.pts Poly.ofList
  simp only [List.map_rotate, List.mem_rotate]
  rw [count_perm (cyclicPairs_rotate_perm _ _)]

/-- **C73** The answer does not depend on the orientation. -/
theorem C73_reverse (l : List (Vec ℝ)) (p : Vec ℝ) :
    (Poly.ofList l.reverse).contains p true = (Poly.ofList l).contains p true := by
  rw [Bool.eq_iff_iff, C73_parity, C73_parity]
  unfold Poly.crossings Poly.pts Poly.ofList
  simp only [List.map_reverse, List.mem_reverse]
  rw [count_perm (cyclicPairs_reverse_perm _), count_map]
  have : Spec.count (fun e : Pt × Pt => Crosses p.pt e.swap.1 e.swap.2) (cyclicPairs (l.map Vec.pt)) =
      Spec.count (fun e : Pt × Pt => Crosses p.pt e.1 e.2) (cyclicPairs (l.map Vec.pt)) :=
    count_congr (fun e _ => crosses_swap)
  rw [this]

/-- **C73** Points outside a box around the vertices are never contained, in neither mode. -/
theorem C73_outside (poly : Poly ℝ) (p : Vec ℝ) (allow : Bool) {x0 x1 y0 y1 : ℝ}
    (hb : ∀ v ∈ poly.vertices, v.pt ∈ box x0 x1 y0 y1) (hp : p.pt ∉ box x0 x1 y0 y1) :
    poly.contains p allow = false := by
  have hb' : ∀ z ∈ poly.pts, z ∈ box x0 x1 y0 y1 := by
    intro z hz
    obtain ⟨v, hv, rfl⟩ := List.mem_map.mp hz
    exact hb v hv
  have hev : ¬ Odd (poly.crossings p.pt) := even_outside hb' hp
  rw [← Bool.not_eq_true]
  cases allow with
  | true => rw [C73_parity]; rintro (h | h)
            · exact hp (hb' _ h)
            · exact hev h
  | false => rw [C73_parity_strict]; exact fun h => hev h.2

/-- On a polygon edge `on_segment` is never False. -/
theorem Poly.onSegment_of_mem {p a b : Vec ℝ} (h : p.pt ∈ segment ℝ a.pt b.pt) :
    (Seg.ofPoints a b).onSegment p = true := by
  by_cases hd : (Seg.ofPoints a b).NonDeg
  · exact (C29_on_segment_partial _ _ hd).mpr h
  · rw [C29_degenerate _ _ hd]
    have : a.pt = b.pt := not_not.mp hd
    rw [← this, segment_same, Set.mem_singleton_iff] at h
    exact (Vec.pt_eq_iff.mp h).2

theorem Poly.mem_outline {poly : Poly ℝ} {z : Pt} :
    z ∈ outline poly.pts ↔ ∃ e ∈ cyclicPairs poly.vertices, z ∈ segment ℝ e.1.pt e.2.pt := by
  unfold outline Poly.pts
  rw [cyclicPairs_map]
  constructor
  · rintro ⟨e, he, hz⟩
    obtain ⟨f, hf, rfl⟩ := List.mem_map.mp he
    exact ⟨f, hf, hz⟩
  · rintro ⟨f, hf, hz⟩
    exact ⟨_, List.mem_map_of_mem hf, hz⟩

/-- **C73** With `allow_on_segment = False` the answer off the outline is the same, if no two consecutive vertices
coincide. -/
theorem C73_strict_partial (poly : Poly ℝ) (p : Vec ℝ) (h : p.pt ∉ outline poly.pts)
    (hd : ∀ e ∈ cyclicPairs poly.vertices, e.1.pt ≠ e.2.pt) :
    poly.contains p false = poly.contains p true := by
  have hv : p.pt ∉ poly.pts := by
    intro hm
    rw [← map_fst_cyclicPairs poly.pts] at hm
    obtain ⟨e, he, hz⟩ := List.mem_map.mp hm
    exact h ⟨e, he, hz ▸ left_mem_segment ℝ _ _⟩
  rw [Bool.eq_iff_iff, C73_parity, C73_parity_strict]
  simp only [hv, false_or]
  refine and_iff_right ?_
  intro e he
  rw [← Bool.not_eq_true, C29_on_segment_partial (Seg.ofPoints e.1 e.2) p (hd e he)]
  intro hm
  exact h (Poly.mem_outline.mpr ⟨e, he, hm⟩)

/-- **C73** For a strictly convex polygon, `contains(p)` off the outline and `contains(p, False)` everywhere are
membership in the interior of the convex hull. -/
theorem C73_convex (poly : Poly ℝ) (H : StrictConvex poly.pts) (p : Vec ℝ) :
    (p.pt ∉ outline poly.pts →
      (poly.contains p true = true ↔ p.pt ∈ interior (convexHull ℝ {z | z ∈ poly.pts}))) ∧
    (poly.contains p false = true ↔ p.pt ∈ interior (convexHull ℝ {z | z ∈ poly.pts})) := by
  rw [← H.leftOfAll_eq]
  have hd : ∀ e ∈ cyclicPairs poly.vertices, e.1.pt ≠ e.2.pt := by
    intro e he
    refine H.ne (e := (e.1.pt, e.2.pt)) ?_
    unfold Poly.pts
    rw [cyclicPairs_map]
    exact List.mem_map_of_mem (f := Prod.map Vec.pt Vec.pt) he
  have h1 : p.pt ∉ outline poly.pts → (poly.contains p true = true ↔ p.pt ∈ leftOfAll poly.pts) := by
    intro ho
    rw [C73_parity, ← H.odd_iff ho]
    refine or_iff_right ?_
    intro hm
    rw [← map_fst_cyclicPairs poly.pts] at hm
    obtain ⟨e, he, hz⟩ := List.mem_map.mp hm
    exact ho ⟨e, he, hz ▸ left_mem_segment ℝ _ _⟩
  refine ⟨h1, ?_⟩
  by_cases ho : p.pt ∈ outline poly.pts
  · constructor
    · intro h
      rw [C73_parity_strict] at h
      obtain ⟨e, he, hz⟩ := Poly.mem_outline.mp ho
      have := h.1 e he
      rw [Poly.onSegment_of_mem hz] at this
      exact absurd this (by decide)
    · intro h; exact absurd ho (H.leftOfAll_disjoint h)
  · rw [C73_strict_partial poly p ho hd]; exact h1 ho

/-- **C73** for the clockwise order of a strictly convex polygon. -/
theorem C73_convex_cw (l : List (Vec ℝ)) (H : StrictConvex (l.map Vec.pt)) (p : Vec ℝ) (ho : p.pt ∉ outline (l.map Vec.pt)) :
    (Poly.ofList l.reverse).contains p true = true ↔ p.pt ∈ interior (convexHull ℝ {z | z ∈ l.map Vec.pt}) := by
  rw [C73_reverse]
  exact (C73_convex (Poly.ofList l) H p).1 ho

/-- The square with corners (0,0), (4,0), (4,4), (0,4). -/
def Poly.square4 : Poly ℝ := Poly.ofList [Vec.ofXY 0 0, Vec.ofXY 4 0, Vec.ofXY 4 4, Vec.ofXY 0 4]

theorem Poly.square4_pts : Poly.square4.pts = [(0, 0), (4, 0), (4, 4), (0, 4)] := rfl

theorem Poly.square4_pairs : cyclicPairs Poly.square4.pts =
    [((0, 0), (4, 0)), ((4, 0), (4, 4)), ((4, 4), (0, 4)), ((0, 4), (0, 0))] := rfl

/-- Non-vacuity of C73: a square is strictly convex, and its center is contained. -/
theorem Poly.square4_convex : StrictConvex Poly.square4.pts := by
  refine ⟨by simp [Poly.square4_pts], ?_, ?_⟩
  · rw [Poly.square4_pts]
    norm_num [List.nodup_cons]
  · rw [Poly.square4_pairs, Poly.square4_pts]
    norm_num [area2]

open Classical in
theorem Poly.square4_crossings (p : Pt) : Poly.square4.crossings p =
    (((0 + if Crosses p (0, 4) (0, 0) then 1 else 0) + if Crosses p (4, 4) (0, 4) then 1 else 0) +
    if Crosses p (4, 0) (4, 4) then 1 else 0) + if Crosses p (0, 0) (4, 0) then 1 else 0 := by
  unfold Poly.crossings
  rw [Poly.square4_pairs]
  simp only [count_cons, count_nil]

example : Poly.square4.contains (Vec.ofXY 2 2) true = true ∧ Poly.square4.contains (Vec.ofXY 2 2) false = true ∧
    Poly.square4.contains (Vec.ofXY 5 2) true = false := by
  have h : ((2, 2) : Pt) ∈ leftOfAll Poly.square4.pts := by
    unfold leftOfAll
    rw [Poly.square4_pairs]; norm_num [area2]
  have h' := C73_convex Poly.square4 Poly.square4_convex (Vec.ofXY 2 2)
  rw [← Poly.square4_convex.leftOfAll_eq] at h'
  refine ⟨(h'.1 (Poly.square4_convex.leftOfAll_disjoint h)).mpr h, h'.2.mpr h, ?_⟩
  rw [← Bool.not_eq_true, C73_parity, Poly.square4_crossings]
  norm_num [crosses_iff, area2, Poly.square4_pts]

/-- **C73** with `allow_on_segment = False` is false when consecutive vertices coincide: every point at the height of the
repeated vertex is rejected, here the point (2,1) inside the triangle (0,1), (4,0), (4,3). -/
theorem C73_strict_refuted : ∃ (poly : Poly ℝ) (p : Vec ℝ), p.pt ∉ outline poly.pts ∧
    poly.contains p true = true ∧ poly.contains p false = false := by
  have hpairs : cyclicPairs (Poly.ofList [Vec.ofXY (0:ℝ) 1, Vec.ofXY 0 1, Vec.ofXY 4 0, Vec.ofXY 4 3]).pts =
    [((0, 1), (0, 1)), ((0, 1), (4, 0)), ((4, 0), (4, 3)), ((4, 3), (0, 1))] := rfl
  refine ⟨Poly.ofList [Vec.ofXY 0 1, Vec.ofXY 0 1, Vec.ofXY 4 0, Vec.ofXY 4 3], Vec.ofXY 2 1, ?_, ?_, ?_⟩
  · rintro ⟨e, he, hz⟩
    rw [hpairs] at he
    obtain ⟨t, t0, t1, hx, hy⟩ := mem_seg.mp hz
    simp only [List.mem_cons, List.not_mem_nil, or_false] at he
    rcases he with rfl | rfl | rfl | rfl <;> simp only [Vec.pt_ofXY] at hx hy <;> linarith
  · rw [C73_parity]
    right
    unfold Poly.crossings
    rw [hpairs]
    simp only [count_cons, count_nil]
    norm_num [crosses_iff, area2]
  · rw [← Bool.not_eq_true, C73_parity_strict]
    rintro ⟨h, _⟩
    have := h (Vec.ofXY 0 1, Vec.ofXY 0 1) (by simp [cyclicPairs, Poly.ofList])
    rw [← Bool.not_eq_true, C29_degenerate _ _ (by simp [Seg.NonDeg, Seg.ofPoints])] at this
    exact this rfl

/-- **C74** `contains(p, False)` is False for every outline point of every polygon. -/
theorem C74_strict (poly : Poly ℝ) (p : Vec ℝ) (h : p.pt ∈ outline poly.pts) : poly.contains p false = false := by
  rw [← Bool.not_eq_true, C73_parity_strict]
  rintro ⟨h1, _⟩
  obtain ⟨e, he, hz⟩ := Poly.mem_outline.mp h
  have := h1 e he
  rw [Poly.onSegment_of_mem hz] at this
  exact absurd this (by decide)

/-- **C74** `contains(p, True)` is True for every vertex. -/
theorem C74_vertex (poly : Poly ℝ) (v : Vec ℝ) (h : v ∈ poly.vertices) : poly.contains v true = true :=
  (C73_parity poly v).mpr (Or.inl (List.mem_map_of_mem h))

/-- **C74** is false: the middle of the left side and of the far side of a square are not contained. -/
theorem C74_refuted : ∃ (poly : Poly ℝ) (p q : Vec ℝ), p.pt ∈ outline poly.pts ∧ q.pt ∈ outline poly.pts ∧
    poly.contains p true = false ∧ poly.contains q true = false := by
  refine ⟨Poly.square4, Vec.ofXY 0 2, Vec.ofXY 2 4, ?_, ?_, ?_, ?_⟩
  · refine ⟨((0, 4), (0, 0)), by rw [Poly.square4_pairs]; simp, mem_seg.mpr ⟨1 / 2, by norm_num, by norm_num, ?_, ?_⟩⟩
    · norm_num
    · norm_num
  · refine ⟨((4, 4), (0, 4)), by rw [Poly.square4_pairs]; simp, mem_seg.mpr ⟨1 / 2, by norm_num, by norm_num, ?_, ?_⟩⟩
    · norm_num
    · norm_num
  · rw [← Bool.not_eq_true, C73_parity, Poly.square4_crossings]
    norm_num [crosses_iff, area2, Poly.square4_pts]
  · rw [← Bool.not_eq_true, C73_parity, Poly.square4_crossings]
    norm_num [crosses_iff, area2, Poly.square4_pts]

/-- Two vertices on the line of an edge are its ends; a point strictly between the ends of one edge is on no other. -/
theorem Spec.StrictConvex.edge_point {l : List Pt} (H : StrictConvex l) {e w : Pt × Pt} (he : e ∈ cyclicPairs l)
    (hw : w ∈ cyclicPairs l) {p : Pt} (hp : p ∈ openSegment ℝ e.1 e.2) (h0 : area2 w.1 w.2 p = 0) : w = e := by
  obtain ⟨s, t, hs, ht, hst, rfl⟩ := hp
  rw [area2_affine _ _ _ _ _ _ hst] at h0
  have w1 := H.weak hw (fst_mem_of_cyclicPairs he)
  have w2 := H.weak hw (snd_mem_of_cyclicPairs he)
  have z1 : area2 w.1 w.2 e.1 = 0 := by
    have := mul_nonneg hs.le w1; have := mul_nonneg ht.le w2
    exact (mul_eq_zero.mp (show s * area2 w.1 w.2 e.1 = 0 by linarith)).resolve_left hs.ne'
  have z2 : area2 w.1 w.2 e.2 = 0 := by
    have := mul_nonneg hs.le w1; have := mul_nonneg ht.le w2
    exact (mul_eq_zero.mp (show t * area2 w.1 w.2 e.2 = 0 by linarith)).resolve_left ht.ne'
  rcases H.mem_of_zero hw (fst_mem_of_cyclicPairs he) z1 with h1 | h1
  · exact H.fst_inj hw he h1.symm
  · rcases H.mem_of_zero hw (snd_mem_of_cyclicPairs he) z2 with h2 | h2
    · exfalso
      obtain ⟨z, hz, a1, a2⟩ := H.third e.1 e.2
      have b1 := H.left e he z hz a1 a2
      have b2 := H.left w hw z hz (h2 ▸ a2) (h1 ▸ a1)
      rw [← h1, ← h2, area2_swap] at b2
      linarith
    · exact H.snd_inj hw he h2.symm

/-- **C74** (partial: strictly convex polygons, counter-clockwise). On an edge, apart from the vertices, `contains(p,
True)` is True exactly on the edges that lead upwards (the right side) or horizontally to the right (the side with
smallest y). -/
theorem C74_convex_partial (poly : Poly ℝ) (H : StrictConvex poly.pts) (p : Vec ℝ) (e : Pt × Pt)
    (he : e ∈ cyclicPairs poly.pts) (hp : p.pt ∈ openSegment ℝ e.1 e.2) (hv : p.pt ∉ poly.pts) :
    poly.contains p true = true ↔ e.1.2 < e.2.2 ∨ (e.1.2 = e.2.2 ∧ e.1.1 < e.2.1) := by
  rw [C73_parity]
  simp only [hv, false_or]
  unfold Poly.crossings
  obtain ⟨hs, hu1, hd1⟩ := H.count_split p.pt
  rw [hs]
  set z := p.pt with hz
  have hout : z ∈ outline poly.pts := ⟨e, he, openSegment_subset_segment ℝ _ _ hp⟩
  have hhull := outline_subset_hull _ hout
  have ha0 : area2 e.1 e.2 z = 0 := by
    obtain ⟨t, _, _, hx, hy⟩ := mem_openSeg.mp hp
    unfold area2; rw [hx, hy]; ring
  obtain ⟨t, t0, t1, hx, hy⟩ := mem_openSeg.mp hp
  -- an upward edge always counts; a downward one only if it is `e`
  have hup : (∃ u ∈ cyclicPairs poly.pts, u.1.2 ≤ z.2 ∧ z.2 < u.2.2) →
      Spec.count (fun e : Pt × Pt => (e.1.2 ≤ z.2 ∧ z.2 < e.2.2) ∧ 0 ≤ area2 e.1 e.2 z) (cyclicPairs poly.pts) = 1 := by
    rintro ⟨u, um, uu⟩
    exact le_antisymm hu1 (count_pos_of (P := fun e : Pt × Pt => (e.1.2 ≤ z.2 ∧ z.2 < e.2.2) ∧ 0 ≤ area2 e.1 e.2 z)
      um ⟨uu, H.hull um hhull⟩)
  have hdn : ¬ (e.2.2 ≤ z.2 ∧ z.2 < e.1.2) →
      Spec.count (fun e : Pt × Pt => (e.2.2 ≤ z.2 ∧ z.2 < e.1.2) ∧ area2 e.1 e.2 z ≤ 0) (cyclicPairs poly.pts) = 0 := by
    intro hn
    apply count_eq_zero
    rintro w wm ⟨wd, wa⟩
    have := H.edge_point he wm hp (le_antisymm wa (H.hull wm hhull))
    rw [this] at wd; exact hn wd
  have hne := H.ne he
  obtain ⟨q, hq, q1, q2⟩ := H.third e.1 e.2
  have hql := H.left e he q hq q1 q2
  rcases lt_trichotomy e.1.2 e.2.2 with h | h | h
  · have hz2 : e.1.2 ≤ z.2 ∧ z.2 < e.2.2 := by rw [hy]; constructor <;> nlinarith
    rw [hup ⟨e, he, hz2⟩, hdn (by rintro ⟨_, h2⟩; linarith [hz2.1])]
    simp [h]
  · have hz2 : z.2 = e.1.2 := by rw [hy, h]; ring
    have hq' : area2 e.1 e.2 q = (e.2.1 - e.1.1) * (q.2 - e.1.2) := by unfold area2; rw [h]; ring
    rw [hdn (by rw [hz2, ← h]; simp)]
    rw [hq'] at hql
    rcases lt_trichotomy e.1.1 e.2.1 with hx1 | hx1 | hx1
    · have hq2 : e.1.2 < q.2 := by
        by_contra hc; push Not at hc
        nlinarith [mul_nonneg (sub_nonneg.mpr hx1.le) (sub_nonneg.mpr hc)]
      obtain ⟨u, um, uu⟩ := exists_up (y := z.2) ⟨e.1, fst_mem_of_cyclicPairs he, hz2.ge⟩ ⟨q, hq, hz2 ▸ hq2⟩
      rw [hup ⟨u, um, uu⟩]
      simp [h, hx1]
    · exact absurd (Prod.ext hx1 h) hne
    · have hall : ∀ w ∈ poly.pts, w.2 ≤ z.2 := by
        intro w hw
        have := H.weak he hw
        have hw' : area2 e.1 e.2 w = (e.2.1 - e.1.1) * (w.2 - e.1.2) := by unfold area2; rw [h]; ring
        rw [hw'] at this
        rw [hz2]
        by_contra hc; push Not at hc
        nlinarith [mul_pos (sub_pos.mpr hx1) (sub_pos.mpr hc)]
      rw [count_eq_zero (fun u um hu => absurd hu.1.2 (not_lt.mpr (hall _ (snd_mem_of_cyclicPairs um))))]
      simp [h, hx1.le]
  · have hz2 : e.2.2 ≤ z.2 ∧ z.2 < e.1.2 := by rw [hy]; constructor <;> nlinarith
    rw [hup (exists_up_of_down ⟨e, he, hz2⟩), le_antisymm hd1 (count_pos_of
      (P := fun e : Pt × Pt => (e.2.2 ≤ z.2 ∧ z.2 < e.1.2) ∧ area2 e.1 e.2 z ≤ 0) he ⟨hz2, ha0.le⟩)]
    simp only [not_lt.mpr h.le, h.ne', false_and, or_self, iff_false]
    decide

/-- Non-vacuity of C74: the middle of the right side of the square is contained. -/
example : Poly.square4.contains (Vec.ofXY 4 2) true = true := by
  rw [C73_parity, Poly.square4_crossings]
  norm_num [crosses_iff, area2, Poly.square4_pts]

end PyrusGeom
