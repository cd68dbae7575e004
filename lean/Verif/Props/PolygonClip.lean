import Verif.Props.Polygon

/-! # Properties C75 – C77: `Polygon2D.dist`, clipping -/

namespace PyrusGeom
open Spec

/-! ## C75 -/

theorem foldl_distStep (p : Vec ℝ) (E : List (Vec ℝ × Vec ℝ)) (m : Option ℝ) :
    E.foldl (Poly.distStep p) m = (E.map (fun e => (Seg.ofPoints e.1 e.2).distPoint p)).foldl Poly.updMin m := by
  induction E generalizing m with
  | nil => rfl
  | cons e E ih => rw [List.foldl_cons, ih]; rfl

theorem foldl_dist_min (p : Vec ℝ) (E : List (Vec ℝ × Vec ℝ)) (hE : E ≠ []) :
    ∃ m, E.foldl (Poly.distStep p) none = some m ∧
      IsMinDist {z | ∃ e ∈ E, z ∈ segment ℝ e.1.pt e.2.pt} p.pt m := by
  rw [foldl_distStep]
  obtain ⟨m, h1, h2, h3⟩ := foldl_updMin (l := E.map (fun e => (Seg.ofPoints e.1 e.2).distPoint p)) (by simpa using hE)
  refine ⟨m, h1, ?_, ?_⟩
  · obtain ⟨e, he, rfl⟩ := List.mem_map.mp h2
    obtain ⟨⟨⟨q, hq, hd⟩, _⟩, _⟩ := C34_dist_point (Seg.ofPoints e.1 e.2) p
    exact ⟨q, ⟨e, he, hq⟩, hd⟩
  · rintro q ⟨e, he, hq⟩
    obtain ⟨⟨_, hmin⟩, _⟩ := C34_dist_point (Seg.ofPoints e.1 e.2) p
    exact (h3 _ (List.mem_map_of_mem he)).trans (hmin q hq)

/-- **C75** With at least two vertices, `dist(p, False)` is the minimum distance to the outline. -/
theorem C75_dist (poly : Poly ℝ) (p : Vec ℝ) (h : 2 ≤ poly.vertices.length) :
    ∃ m, poly.dist p false = some m ∧ IsMinDist (outline poly.pts) p.pt m := by
  have hout : outline poly.pts = {z | ∃ e ∈ cyclicPairs poly.vertices, z ∈ segment ℝ e.1.pt e.2.pt} := by
    ext z; exact Poly.mem_outline
  rw [hout]
  unfold Poly.dist
  rcases hv : poly.vertices with _ | ⟨v0, _ | ⟨v1, _ | ⟨v2, rest⟩⟩⟩
  · rw [hv] at h; simp at h
  · rw [hv] at h; simp at h
  · simp only [Bool.false_and, Bool.false_eq_true, if_false]
    obtain ⟨m, h1, h2⟩ := foldl_dist_min p (chainPairs [v0, v1]) (by simp)
    refine ⟨m, h1, ?_⟩
    have : {z | ∃ e ∈ cyclicPairs [v0, v1], z ∈ segment ℝ e.1.pt e.2.pt} =
        {z | ∃ e ∈ chainPairs [v0, v1], z ∈ segment ℝ e.1.pt e.2.pt} := by
      ext z
      simp [cyclicPairs, segment_symm ℝ v1.pt v0.pt]
    rw [this]; exact h2
  · simp only [Bool.false_and, Bool.false_eq_true, if_false]
    obtain ⟨m, h1, h2⟩ := foldl_dist_min p (cyclicPairs (v0 :: v1 :: v2 :: rest)) (by simp [cyclicPairs])
    refine ⟨m, ?_, h2⟩
    rw [← h1, cyclicPairs_eq_chain]
    set last := (v2 :: rest).getLast (List.cons_ne_nil _ _) with hl
    have hs : v2 :: rest = (v2 :: rest).dropLast ++ [last] := (List.dropLast_append_getLast _).symm
    have e1 : v0 :: (v1 :: v2 :: rest ++ [v0]) = (v0 :: v1 :: (v2 :: rest).dropLast) ++ last :: [v0] := by
      rw [show (v0 :: v1 :: (v2 :: rest).dropLast) ++ last :: [v0] =
        v0 :: v1 :: (((v2 :: rest).dropLast ++ [last]) ++ [v0]) by simp, ← hs]
      rfl
    have e2 : v0 :: v1 :: v2 :: rest = (v0 :: v1 :: (v2 :: rest).dropLast) ++ [last] := by
      rw [List.cons_append, List.cons_append, ← hs]
    rw [e1, chainPairs_append, ← e2, List.foldl_append]
    rfl

/-- **C75** `dist(p)` is 0 for contained points and `dist(p, False)` otherwise; with one vertex it is the distance to
it, with none infinity. -/
theorem C75_plane (poly : Poly ℝ) (p : Vec ℝ) :
    (poly.contains p true = true → poly.dist p true = some 0) ∧
    (poly.contains p true = false → poly.dist p true = poly.dist p false) ∧
    (∀ v, poly.vertices = [v] → ∀ c, poly.dist p c = some (Spec.d v.pt p.pt)) ∧
    (poly.vertices = [] → ∀ c, poly.dist p c = none) := by
  have hone : ∀ v, poly.vertices = [v] → ∀ c, poly.dist p c = some (Spec.d v.pt p.pt) := by
    intro v hv c
    unfold Poly.dist
    simp only [hv, Vec.r_real]; rfl
  refine ⟨?_, ?_, hone, ?_⟩
  · intro hc
    rcases hv : poly.vertices with _ | ⟨v0, _ | ⟨v1, vs⟩⟩
    · rw [C73_parity] at hc
      simp [Poly.crossings, Poly.pts, hv] at hc
    · rw [hone v0 hv]
      unfold Poly.contains at hc
      simp only [hv, Bool.true_and, Vec.eq_iff_pt] at hc
      rw [hc, Spec.d_eq_zero.mpr rfl]
    · unfold Poly.dist
      simp only [hv, Bool.true_and, hc, if_true, Nat.cast_zero]
  · intro hc
    unfold Poly.dist
    simp only [hc, Bool.and_false]
  · intro hv c
    unfold Poly.dist
    have : poly.contains p true = false := by unfold Poly.contains; simp [hv]
    simp only [hv, this, Bool.and_false, Bool.false_eq_true, if_false, chainPairs_nil, List.foldl_nil]

/-- Non-vacuity of C75: the point (6,2) has distance 2 to the square. -/
example : Poly.square4.dist (Vec.ofXY 6 2) false = some 2 := by
  obtain ⟨m, h1, ⟨q, ⟨e, he, hq⟩, hd⟩, hmin⟩ := C75_dist Poly.square4 (Vec.ofXY 6 2) (by simp [Poly.square4, Poly.ofList])
  have h2 : m ≤ 2 := by
    have := hmin (4, 2) ⟨((4, 0), (4, 4)), by rw [Poly.square4_pairs]; simp,
      mem_seg.mpr ⟨1 / 2, by norm_num, by norm_num, by norm_num, by norm_num⟩⟩
    rwa [d_eq_of_sq (p := (Vec.ofXY 6 2).pt) (q := (4, 2)) (m := 2) (by norm_num) (by norm_num)] at this
  have h3 : 2 ≤ m := by
    rw [← hd]
    have hx : q.1 ≤ 4 := by
      rw [Poly.square4_pairs] at he
      obtain ⟨t, t0, t1, hx, hy⟩ := mem_seg.mp hq
      simp only [List.mem_cons, List.not_mem_nil, or_false] at he
      rcases he with rfl | rfl | rfl | rfl <;> simp only at hx <;> linarith
    unfold Spec.d
    apply Real.le_sqrt_of_sq_le
    simp only [Vec.pt_ofXY]
    nlinarith [sq_nonneg ((2:ℝ) - q.2)]
  rw [h1, le_antisymm h2 h3]

/-! ## C76 -/

/-- Where the vertices of a clipped polygon come from. -/
theorem Poly.clipLoop_mem {inR : Vec ℝ → Bool} {l : Line ℝ} {E : List (Vec ℝ × Vec ℝ)} {acc : List (Vec ℝ)} {v : Vec ℝ}
    (h : v ∈ Poly.clipLoop inR l E acc) :
    v ∈ acc ∨ (inR v = true ∧ ∃ e ∈ E, v = e.2) ∨
      (∃ e ∈ E, inR e.1 ≠ inR e.2 ∧ v = l.intersection (Line.ofPoints e.1 e.2) ∧ v.valid = true) := by
  induction E generalizing acc with
  | nil => exact Or.inl h
  | cons e E ih =>
    obtain ⟨p0, p1⟩ := e
    have lift : ∀ acc', (v ∈ acc' → v ∈ acc ∨ (inR v = true ∧ v = p1) ∨
        (inR p0 ≠ inR p1 ∧ v = l.intersection (Line.ofPoints p0 p1) ∧ v.valid = true)) →
        v ∈ Poly.clipLoop inR l E acc' →
        v ∈ acc ∨ (inR v = true ∧ ∃ e ∈ (p0, p1) :: E, v = e.2) ∨
        (∃ e ∈ (p0, p1) :: E, inR e.1 ≠ inR e.2 ∧ v = l.intersection (Line.ofPoints e.1 e.2) ∧ v.valid = true) := by
      intro acc' hacc hv
      rcases ih hv with h | ⟨h, e, he, h'⟩ | ⟨e, he, h'⟩
      · rcases hacc h with h | h | h
        · exact Or.inl h
        · exact Or.inr (Or.inl ⟨h.1, _, List.mem_cons_self, h.2⟩)
        · exact Or.inr (Or.inr ⟨_, List.mem_cons_self, h⟩)
      · exact Or.inr (Or.inl ⟨h, e, List.mem_cons_of_mem _ he, h'⟩)
      · exact Or.inr (Or.inr ⟨e, List.mem_cons_of_mem _ he, h'⟩)
    rw [Poly.clipLoop] at h
    by_cases h0 : inR p0 = true <;> by_cases h1 : inR p1 = true
    · rw [if_pos h0, if_pos h1] at h
      refine lift _ ?_ h
      intro hv
      rcases List.mem_append.mp hv with hv | hv
      · exact Or.inl hv
      · rw [List.mem_singleton] at hv; exact Or.inr (Or.inl ⟨hv ▸ h1, hv⟩)
    · rw [if_pos h0, if_neg h1] at h
      simp only at h
      by_cases hc : (l.intersection (Line.ofPoints p0 p1)).valid = true
      · rw [if_neg (by simp [hc])] at h
        refine lift _ ?_ h
        intro hv
        rcases List.mem_append.mp hv with hv | hv
        · exact Or.inl hv
        · rw [List.mem_singleton] at hv
          exact Or.inr (Or.inr ⟨by rw [h0]; exact fun h => h1 h.symm, hv, hv ▸ hc⟩)
      · rw [if_pos (by simpa using hc)] at h
        exact Or.inl h
    · rw [if_neg h0, if_pos h1] at h
      simp only at h
      by_cases hc : (l.intersection (Line.ofPoints p0 p1)).valid = true
      · rw [if_neg (by simp [hc])] at h
        refine lift _ ?_ h
        intro hv
        rcases List.mem_append.mp hv with hv | hv
        · exact Or.inl hv
        · simp only [List.mem_cons, List.not_mem_nil, or_false] at hv
          rcases hv with hv | hv
          · exact Or.inr (Or.inr ⟨by rw [h1]; exact h0, hv, hv ▸ hc⟩)
          · exact Or.inr (Or.inl ⟨hv ▸ h1, hv⟩)
      · rw [if_pos (by simpa using hc)] at h
        exact Or.inl h
    · rw [if_neg h0, if_neg h1] at h
      exact lift acc (fun h => Or.inl h) h

theorem Poly.lineClipped_mem {inR : Vec ℝ → Bool} {l : Line ℝ} {pts : List (Vec ℝ)} {v : Vec ℝ}
    (h : v ∈ Poly.lineClipped inR pts l) :
    (inR v = true ∧ v ∈ pts) ∨
      (∃ e ∈ cyclicPairs pts, inR e.1 ≠ inR e.2 ∧ v = l.intersection (Line.ofPoints e.1 e.2) ∧ v.valid = true) := by
  rcases Poly.clipLoop_mem h with h | ⟨h, e, he, rfl⟩ | h
  · simp at h
  · exact Or.inl ⟨h, snd_mem_of_cyclicPairs he⟩
  · exact Or.inr h

/-- The side of a line given by the sign `s`. -/
def Spec.halfPlane (l : Line ℝ) (s : ℝ) : Set Pt := {z | 0 ≤ s * (l.a * z.1 + l.b * z.2 + l.c)}

/-- The cut of an edge with one end on each side is the crossing point. -/
theorem Poly.cut_mem {l : Line ℝ} {s : ℝ} {p0 p1 : Vec ℝ}
    (h : ¬ (p0.pt ∈ halfPlane l s ↔ p1.pt ∈ halfPlane l s))
    (hv : (l.intersection (Line.ofPoints p0 p1)).valid = true) :
    (l.intersection (Line.ofPoints p0 p1)).pt ∈ segment ℝ p0.pt p1.pt ∩ l.pts := by
  have hne : p0.pt ≠ p1.pt := by intro e; rw [e] at h; exact h Iff.rfl
  have hint := (C21_intersection l (Line.ofPoints p0 p1)).2.1 hv
  have hm : (l.intersection (Line.ofPoints p0 p1)).pt ∈ l.pts ∩ (Line.ofPoints p0 p1).pts := by
    rw [hint]; exact Set.mem_singleton _
  -- a point of the segment on the line
  set f0 := l.a * p0.x + l.b * p0.y + l.c with hf0
  set f1 := l.a * p1.x + l.b * p1.y + l.c with hf1
  have hs : s * f0 * (s * f1) ≤ 0 ∧ f0 ≠ f1 := by
    have k0 : p0.pt ∈ halfPlane l s ↔ 0 ≤ s * f0 := Iff.rfl
    have k1 : p1.pt ∈ halfPlane l s ↔ 0 ≤ s * f1 := Iff.rfl
    rw [k0, k1] at h
    refine ⟨?_, fun e => h (by rw [e])⟩
    by_cases g : 0 ≤ s * f0
    · have : s * f1 < 0 := by
        by_contra hc; exact h ⟨fun _ => not_lt.mp hc, fun _ => g⟩
      nlinarith
    · have : 0 ≤ s * f1 := by
        by_contra hc; exact h ⟨fun g' => absurd g' g, fun g' => absurd g' hc⟩
      push Not at g; nlinarith
  have hs0 : s ≠ 0 := by
    rintro rfl
    exact h (by simp [halfPlane])
  have hff : f0 * f1 ≤ 0 := by
    have h2 : 0 < s ^ 2 := by positivity
    have : s ^ 2 * (f0 * f1) ≤ 0 := by linarith [hs.1, show s * f0 * (s * f1) = s ^ 2 * (f0 * f1) by ring]
    by_contra hc; push Not at hc
    nlinarith [mul_pos h2 hc]
  have hd : f0 - f1 ≠ 0 := sub_ne_zero.mpr hs.2
  set t := f0 / (f0 - f1) with ht
  have htm : t * (f0 - f1) = f0 := by rw [ht]; field_simp
  have t0 : 0 ≤ t := by
    rw [ht]; rw [show f0 / (f0 - f1) = f0 * (f0 - f1) / (f0 - f1) ^ 2 by field_simp]
    exact div_nonneg (by nlinarith [sq_nonneg f0]) (sq_nonneg _)
  have t1 : t ≤ 1 := by
    rw [ht, show f0 / (f0 - f1) = 1 - f1 * (f1 - f0) / (f0 - f1) ^ 2 by field_simp; ring]
    have : 0 ≤ f1 * (f1 - f0) / (f0 - f1) ^ 2 := div_nonneg (by nlinarith [sq_nonneg f1]) (sq_nonneg _)
    linarith
  set q : Pt := (p0.x + t * (p1.x - p0.x), p0.y + t * (p1.y - p0.y)) with hq
  have q1 : q ∈ segment ℝ p0.pt p1.pt := mem_seg.mpr ⟨t, t0, t1, rfl, rfl⟩
  have q2 : q ∈ l.pts := by
    rw [Line.mem_pts, hq]
    simp only
    have : l.a * (p0.x + t * (p1.x - p0.x)) + l.b * (p0.y + t * (p1.y - p0.y)) + l.c = f0 - t * (f0 - f1) := by
      rw [hf0, hf1]; ring
    rw [this, htm, sub_self]
  have q3 : q ∈ (Line.ofPoints p0 p1).pts := by
    rw [C20_two_points _ _ hne]
    exact ⟨t, by rw [hq]; rfl⟩
  have : q ∈ l.pts ∩ (Line.ofPoints p0 p1).pts := ⟨q2, q3⟩
  rw [hint, Set.mem_singleton_iff] at this
  rw [← this]; exact ⟨q1, q2⟩

/-- **C76** Clipping with a predicate that is one side of the line returns points of that side only, each an input
vertex or the point where an edge with ends on both sides crosses the line. -/
theorem C76_sound (inR : Vec ℝ → Bool) (l : Line ℝ) (s : ℝ) (hR : ∀ v, inR v = true ↔ v.pt ∈ halfPlane l s)
    (pts : List (Vec ℝ)) (v : Vec ℝ) (h : v ∈ Poly.lineClipped inR pts l) :
    v.pt ∈ halfPlane l s ∧
    (v ∈ pts ∨ ∃ e ∈ cyclicPairs pts, ¬ (e.1.pt ∈ halfPlane l s ↔ e.2.pt ∈ halfPlane l s) ∧
      v.pt ∈ segment ℝ e.1.pt e.2.pt ∩ l.pts) := by
  rcases Poly.lineClipped_mem h with ⟨h1, h2⟩ | ⟨e, he, hne, rfl, hv⟩
  · exact ⟨(hR v).mp h1, Or.inl h2⟩
  · have hne' : ¬ (e.1.pt ∈ halfPlane l s ↔ e.2.pt ∈ halfPlane l s) := by
      rw [← hR, ← hR, ← Bool.eq_iff_iff]; exact hne
    have hc := Poly.cut_mem hne' hv
    refine ⟨?_, Or.inr ⟨e, he, hne', hc⟩⟩
    have := Line.mem_pts.mp hc.2
    simp only [halfPlane, Set.mem_ofPred_eq, this, mul_zero, le_refl]

/-- **C76** If all points satisfy the predicate the result is the input rotated by one (any predicate, any line). -/
theorem C76_all_inside (inR : Vec ℝ → Bool) (l : Line ℝ) (pts : List (Vec ℝ)) (h : ∀ v ∈ pts, inR v = true) :
    Poly.lineClipped inR pts l = pts.rotate 1 := by
  have key : ∀ (E : List (Vec ℝ × Vec ℝ)) (acc : List (Vec ℝ)), (∀ e ∈ E, inR e.1 = true ∧ inR e.2 = true) →
      Poly.clipLoop inR l E acc = acc ++ E.map Prod.snd := by
    intro E
    induction E with
    | nil => intro acc _; simp [Poly.clipLoop]
    | cons e E ih =>
      intro acc hE
      obtain ⟨p0, p1⟩ := e
      obtain ⟨h0, h1⟩ := hE _ List.mem_cons_self
      rw [Poly.clipLoop, if_pos h0, if_pos h1, ih _ (fun e he => hE e (List.mem_cons_of_mem _ he))]
      simp
  unfold Poly.lineClipped
  rw [key _ _ (fun e he => ⟨h _ (fst_mem_of_cyclicPairs he), h _ (snd_mem_of_cyclicPairs he)⟩), List.nil_append,
    map_snd_cyclicPairs]

theorem Poly.clipLoop_acc {inR : Vec ℝ → Bool} {l : Line ℝ} (E : List (Vec ℝ × Vec ℝ)) (acc : List (Vec ℝ)) :
    ∀ v ∈ acc, v ∈ Poly.clipLoop inR l E acc := by
  induction E generalizing acc with
  | nil => exact fun v hv => hv
  | cons e E ih =>
    intro v hv
    rw [Poly.clipLoop]
    split_ifs
    · exact ih _ v (List.mem_append_left _ hv)
    · simp only
      split_ifs
      · exact hv
      · exact ih _ v (List.mem_append_left _ hv)
    · simp only
      split_ifs
      · exact hv
      · exact ih _ v (List.mem_append_left _ hv)
    · exact ih _ v hv

/-- **C76** Nothing is lost, as long as no edge with ends on both sides is almost parallel to the line: every vertex of
the half plane stays and every crossing point is added. -/
theorem C76_complete_partial (inR : Vec ℝ → Bool) (l : Line ℝ) (s : ℝ) (hR : ∀ v, inR v = true ↔ v.pt ∈ halfPlane l s)
    (pts : List (Vec ℝ)) (hp : ∀ e ∈ cyclicPairs pts, ¬ (e.1.pt ∈ halfPlane l s ↔ e.2.pt ∈ halfPlane l s) →
      l.isParallel (Line.ofPoints e.1 e.2) = false) :
    (∀ v ∈ pts, v.pt ∈ halfPlane l s → v ∈ Poly.lineClipped inR pts l) ∧
    (∀ e ∈ cyclicPairs pts, ¬ (e.1.pt ∈ halfPlane l s ↔ e.2.pt ∈ halfPlane l s) →
      ∃ v ∈ Poly.lineClipped inR pts l, v.pt ∈ segment ℝ e.1.pt e.2.pt ∩ l.pts) := by
  have hval : ∀ e ∈ cyclicPairs pts, inR e.1 ≠ inR e.2 → (l.intersection (Line.ofPoints e.1 e.2)).valid = true := by
    intro e he hne
    refine (C21_intersection l (Line.ofPoints e.1 e.2)).1.mpr (hp e he ?_)
    rw [← hR, ← hR, ← Bool.eq_iff_iff]; exact hne
  have key : ∀ (E : List (Vec ℝ × Vec ℝ)) (acc : List (Vec ℝ)),
      (∀ e ∈ E, inR e.1 ≠ inR e.2 → (l.intersection (Line.ofPoints e.1 e.2)).valid = true) →
      ∀ e ∈ E, (inR e.2 = true → e.2 ∈ Poly.clipLoop inR l E acc) ∧
        (inR e.1 ≠ inR e.2 → l.intersection (Line.ofPoints e.1 e.2) ∈ Poly.clipLoop inR l E acc) := by
    intro E
    induction E with
    | nil => intro acc _ e he; simp at he
    | cons a E ih =>
      intro acc hE e he
      obtain ⟨p0, p1⟩ := a
      have hE' := fun e he => hE e (List.mem_cons_of_mem _ he)
      have hc := hE _ List.mem_cons_self
      simp only at hc
      rw [Poly.clipLoop]
      by_cases h0 : inR p0 = true <;> by_cases h1 : inR p1 = true
      · rw [if_pos h0, if_pos h1]
        rcases List.mem_cons.mp he with rfl | he
        · exact ⟨fun _ => Poly.clipLoop_acc _ _ _ (by simp), fun h => absurd (h0.trans h1.symm) h⟩
        · exact ih _ hE' e he
      · have := hc (by rw [h0]; exact fun h => h1 h.symm)
        rw [if_pos h0, if_neg h1]
        simp only
        rw [if_neg (by simp [this])]
        rcases List.mem_cons.mp he with rfl | he
        · exact ⟨fun h => absurd h h1, fun _ => Poly.clipLoop_acc _ _ _ (by simp)⟩
        · exact ih _ hE' e he
      · have := hc (by rw [h1]; exact h0)
        rw [if_neg h0, if_pos h1]
        simp only
        rw [if_neg (by simp [this])]
        rcases List.mem_cons.mp he with rfl | he
        · exact ⟨fun _ => Poly.clipLoop_acc _ _ _ (by simp), fun _ => Poly.clipLoop_acc _ _ _ (by simp)⟩
        · exact ih _ hE' e he
      · rw [if_neg h0, if_neg h1]
        rcases List.mem_cons.mp he with rfl | he
        · refine ⟨fun h => absurd h h1, fun h => absurd ?_ h⟩
          rw [Bool.not_eq_true] at h0 h1; exact h0.trans h1.symm
        · exact ih _ hE' e he
  refine ⟨?_, ?_⟩
  · intro v hv hvh
    have : v ∈ (cyclicPairs pts).map Prod.snd := by rw [map_snd_cyclicPairs]; exact List.mem_rotate.mpr hv
    obtain ⟨e, he, rfl⟩ := List.mem_map.mp this
    exact (key _ [] hval e he).1 ((hR _).mpr hvh)
  · intro e he hne
    have hne' : inR e.1 ≠ inR e.2 := by
      rw [← hR, ← hR, ← Bool.eq_iff_iff] at hne; exact hne
    exact ⟨_, (key _ [] hval e he).2 hne', Poly.cut_mem hne (hval e he hne')⟩

/-- Completeness of C76 fails without the guard: an edge crossing the line at a tiny angle ends the loop, here at the
first edge, and all three points are lost although two of them are in the half plane. -/
theorem C76_complete_refuted : ∃ (inR : Vec ℝ → Bool) (l : Line ℝ) (s : ℝ) (pts : List (Vec ℝ)),
    (∀ v, inR v = true ↔ v.pt ∈ halfPlane l s) ∧ (∃ v ∈ pts, inR v = true) ∧ Poly.lineClipped inR pts l = [] := by
  refine ⟨fun v => decide (0 ≤ v.y), Line.ofABC 0 1 0, 1,
    [Vec.ofXY 0 (-1 / 10 ^ 8), Vec.ofXY 4 (1 / 10 ^ 8), Vec.ofXY 2 5], ?_, ?_, ?_⟩
  · intro v; simp [halfPlane, Line.ofABC]
  · exact ⟨Vec.ofXY 2 5, by simp, by simp⟩
  · unfold Poly.lineClipped cyclicPairs
    simp only [List.cons_append, List.nil_append, List.zip_cons_cons, List.zip_nil_right]
    rw [Poly.clipLoop, if_neg (by norm_num), if_pos (by norm_num)]
    have : ((Line.ofABC (0:ℝ) 1 0).intersection (Line.ofPoints (Vec.ofXY 0 (-1 / 10 ^ 8)) (Vec.ofXY 4 (1 / 10 ^ 8)))).valid
        = false := by
      rw [Line.intersection_real, if_pos]
      · rfl
      · rw [EPSILON_real]; simp only [Line.ofABC, Line.ofPoints, Vec.ofXY_x, Vec.ofXY_y]
        rw [abs_lt]; norm_num
    simp only
    rw [if_pos (by rw [this]; rfl)]

/-- Non-vacuity of C76: the half plane `y ≥ 0` and a triangle crossing its boundary. -/
example : (∀ v : Vec ℝ, decide (0 ≤ v.y) = true ↔ v.pt ∈ halfPlane (Line.ofABC 0 1 0) 1) ∧
    Vec.ofXY 0 2 ∈ Poly.lineClipped (fun v => decide (0 ≤ v.y)) [Vec.ofXY 0 2, Vec.ofXY 1 (-2), Vec.ofXY 3 (-1)]
      (Line.ofABC (0:ℝ) 1 0) := by
  have hR : ∀ v : Vec ℝ, decide (0 ≤ v.y) = true ↔ v.pt ∈ halfPlane (Line.ofABC 0 1 0) 1 := by
    intro v; simp [halfPlane, Line.ofABC]
  refine ⟨hR, (C76_complete_partial _ _ 1 hR _ ?_).1 _ (by simp) (by norm_num [halfPlane, Line.ofABC])⟩
  intro e he _
  rw [← Bool.not_eq_true, Line.isParallel_iff, EPSILON_real]
  simp only [cyclicPairs, List.cons_append, List.nil_append, List.zip_cons_cons, List.zip_nil_right, List.mem_cons,
    List.not_mem_nil, or_false] at he
  rcases he with rfl | rfl | rfl <;> norm_num [Line.ofABC, Line.ofPoints]

/-! ## C77 -/

theorem vline_val (x0 : ℝ) (z : Pt) :
    (Line.ofAngle (Vec.ofXY x0 (num 0)) (AngleDeg.ofNum (num 90))).a * z.1 +
    (Line.ofAngle (Vec.ofXY x0 (num 0)) (AngleDeg.ofNum (num 90))).b * z.2 +
    (Line.ofAngle (Vec.ofXY x0 (num 0)) (AngleDeg.ofNum (num 90))).c = x0 - z.1 := by
  have h : (AngleDeg.ofNum (num 90 : ℝ)).deg = 90 := by
    rw [num_real, Nat.cast_ofNat]; rw [AngleDeg.ofNum_of_mem] <;> norm_num
  simp only [Line.ofAngle, cosA_real, sinA_real, h, Vec.ofXY_x, Vec.ofXY_y, num_real]
  have h1 : (unit 90).1 = 0 := by
    simp only [unit]; rw [show (90:ℝ) * (Real.pi / 180) = Real.pi / 2 by ring, Real.cos_pi_div_two]
  have h2 : (unit 90).2 = 1 := by
    simp only [unit]; rw [show (90:ℝ) * (Real.pi / 180) = Real.pi / 2 by ring, Real.sin_pi_div_two]
  rw [h1, h2]; ring

theorem hline_val (y0 : ℝ) (z : Pt) :
    (Line.ofAngle (Vec.ofXY (num 0) y0) (AngleDeg.ofNum (num 0))).a * z.1 +
    (Line.ofAngle (Vec.ofXY (num 0) y0) (AngleDeg.ofNum (num 0))).b * z.2 +
    (Line.ofAngle (Vec.ofXY (num 0) y0) (AngleDeg.ofNum (num 0))).c = z.2 - y0 := by
  have h : (AngleDeg.ofNum (num 0 : ℝ)).deg = 0 := by
    rw [num_real, Nat.cast_zero]; rw [AngleDeg.ofNum_of_mem] <;> norm_num
  simp only [Line.ofAngle, cosA_real, sinA_real, h, Vec.ofXY_x, Vec.ofXY_y, num_real]
  have h1 : (unit 0).1 = 1 := by simp [unit]
  have h2 : (unit 0).2 = 0 := by simp [unit]
  rw [h1, h2]; ring

/-- Clipping stays inside every convex set around the input. -/
theorem Poly.clip_convex {inR : Vec ℝ → Bool} {l : Line ℝ} {s : ℝ} (hR : ∀ v, inR v = true ↔ v.pt ∈ halfPlane l s)
    {pts : List (Vec ℝ)} {C : Set Pt} (hC : Convex ℝ C) (h : ∀ v ∈ pts, v.pt ∈ C) :
    ∀ v ∈ Poly.lineClipped inR pts l, v.pt ∈ C ∧ v.pt ∈ halfPlane l s := by
  intro v hv
  obtain ⟨h1, h2⟩ := C76_sound inR l s hR pts v hv
  refine ⟨?_, h1⟩
  rcases h2 with h2 | ⟨e, he, _, h2⟩
  · exact h v h2
  · exact hC.segment_subset (h _ (fst_mem_of_cyclicPairs he)) (h _ (snd_mem_of_cyclicPairs he)) h2.1

theorem convex_box (x0 x1 y0 y1 : ℝ) : Convex ℝ (box x0 x1 y0 y1) := by
  intro z hz w hw s t hs ht hst
  obtain ⟨a1, a2, a3, a4⟩ := hz
  obtain ⟨b1, b2, b3, b4⟩ := hw
  obtain rfl : s = 1 - t := by linarith
  refine ⟨?_, ?_, ?_, ?_⟩ <;>
    simp only [Prod.fst_add, Prod.snd_add, Prod.smul_fst, Prod.smul_snd, smul_eq_mul] <;> nlinarith

theorem Poly.rectClipped_vertices (poly : Poly ℝ) (h : poly.vertices ≠ []) (r : Rect ℝ) :
    (poly.rectClipped r).vertices =
    (let c1 := lineClipped (fun v => decide (v.x ≤ r.right)) poly.vertices
      (Line.ofAngle (Vec.ofXY r.right (num 0)) (AngleDeg.ofNum (num 90)))
    let c2 := lineClipped (fun v => decide (v.y ≤ r.bottom)) c1
      (Line.ofAngle (Vec.ofXY (num 0) r.top) (AngleDeg.ofNum (num 0)))
    let c3 := lineClipped (fun v => decide (r.left ≤ v.x)) c2
      (Line.ofAngle (Vec.ofXY r.left (num 0)) (AngleDeg.ofNum (num 90)))
    lineClipped (fun v => decide (r.top ≤ v.y)) c3
      (Line.ofAngle (Vec.ofXY (num 0) r.top) (AngleDeg.ofNum (num 0)))) := by
  unfold Poly.rectClipped
  cases hv : poly.vertices with
  | nil => exact absurd hv h
  | cons a t => rfl

/-- **C77** (partial: no vertex has y above `bottom()`). Every vertex of the clipped polygon is inside the rectangle and
inside the convex hull of the polygon. -/
theorem C77_clip_partial (poly : Poly ℝ) (hne : poly.vertices ≠ []) (r : Rect ℝ)
    (hb : ∀ v ∈ poly.vertices, v.y ≤ r.bottom) :
    ∀ v ∈ (poly.rectClipped r).vertices, v.pt ∈ r.pts ∧ v.pt ∈ convexHull ℝ {z | z ∈ poly.pts} := by
  rw [Poly.rectClipped_vertices poly hne r]
  simp only
  have hR1 : ∀ v : Vec ℝ, decide (v.x ≤ r.right) = true ↔
      v.pt ∈ halfPlane (Line.ofAngle (Vec.ofXY r.right (num 0)) (AngleDeg.ofNum (num 90))) 1 := by
    intro v; simp only [halfPlane, Set.mem_ofPred_eq]; rw [vline_val]; simp
  have hR3 : ∀ v : Vec ℝ, decide (r.left ≤ v.x) = true ↔
      v.pt ∈ halfPlane (Line.ofAngle (Vec.ofXY r.left (num 0)) (AngleDeg.ofNum (num 90))) (-1) := by
    intro v; simp only [halfPlane, Set.mem_ofPred_eq]; rw [vline_val]; simp
  have hR4 : ∀ v : Vec ℝ, decide (r.top ≤ v.y) = true ↔
      v.pt ∈ halfPlane (Line.ofAngle (Vec.ofXY (num 0) r.top) (AngleDeg.ofNum (num 0))) 1 := by
    intro v; simp only [halfPlane, Set.mem_ofPred_eq]; rw [hline_val]; simp
  set C0 := convexHull ℝ {z | z ∈ poly.pts} ∩ {z : Pt | z.2 ≤ r.bottom} with hC0
  have cC0 : Convex ℝ C0 := by
    refine (convex_convexHull ℝ _).inter ?_
    intro z hz w hw s t hs ht hst
    simp only [Set.mem_ofPred_eq] at hz hw ⊢
    obtain rfl : s = 1 - t := by linarith
    simp only [Prod.snd_add, Prod.smul_snd, smul_eq_mul]; nlinarith
  have s1 := Poly.clip_convex hR1 (pts := poly.vertices) cC0
    (fun v hv => ⟨subset_convexHull ℝ _ (List.mem_map_of_mem hv), hb v hv⟩)
  set c1 := Poly.lineClipped (fun v => decide (v.x ≤ r.right)) poly.vertices
    (Line.ofAngle (Vec.ofXY r.right (num 0)) (AngleDeg.ofNum (num 90))) with hc1
  rw [C76_all_inside (fun v => decide (v.y ≤ r.bottom)) _ c1 (fun v hv => by simpa using (s1 v hv).1.2)]
  set C1 := C0 ∩ {z : Pt | z.1 ≤ r.right} with hC1
  have cC1 : Convex ℝ C1 := by
    refine cC0.inter ?_
    intro z hz w hw s t hs ht hst
    simp only [Set.mem_ofPred_eq] at hz hw ⊢
    obtain rfl : s = 1 - t := by linarith
    simp only [Prod.fst_add, Prod.smul_fst, smul_eq_mul]; nlinarith
  have s2 : ∀ v ∈ c1.rotate 1, v.pt ∈ C1 := by
    intro v hv
    have := s1 v (List.mem_rotate.mp hv)
    exact ⟨this.1, by have h := (hR1 v).mpr this.2; simpa using h⟩
  have s3 := Poly.clip_convex hR3 cC1 s2
  set c3 := Poly.lineClipped (fun v => decide (r.left ≤ v.x)) (c1.rotate 1)
    (Line.ofAngle (Vec.ofXY r.left (num 0)) (AngleDeg.ofNum (num 90))) with hc3
  set C3 := C1 ∩ {z : Pt | r.left ≤ z.1} with hC3
  have cC3 : Convex ℝ C3 := by
    refine cC1.inter ?_
    intro z hz w hw s t hs ht hst
    simp only [Set.mem_ofPred_eq] at hz hw ⊢
    obtain rfl : s = 1 - t := by linarith
    simp only [Prod.fst_add, Prod.smul_fst, smul_eq_mul]; nlinarith
  have s4 := Poly.clip_convex hR4 cC3 (pts := c3) (fun v hv =>
    ⟨(s3 v hv).1, by have h := (hR3 v).mpr (s3 v hv).2; simpa using h⟩)
  intro v hv
  obtain ⟨⟨⟨⟨k1, k2⟩, k3⟩, k4⟩, k5⟩ := s4 v hv
  have k5' := (hR4 v).mpr k5
  exact ⟨Rect.mem_pts.mpr ⟨k4, k3, by simpa using k5', k2⟩, k1⟩

/-- **C77** (partial: what holds for all polygons). Three of the four sides are respected. -/
theorem C77_three_sides_partial (poly : Poly ℝ) (hne : poly.vertices ≠ []) (r : Rect ℝ) (hr : r.Ok) :
    ∀ v ∈ (poly.rectClipped r).vertices, r.left ≤ v.x ∧ r.top ≤ v.y ∧ v.y ≤ r.bottom := by
  rw [Poly.rectClipped_vertices poly hne r]
  simp only
  have hR3 : ∀ v : Vec ℝ, decide (r.left ≤ v.x) = true ↔
      v.pt ∈ halfPlane (Line.ofAngle (Vec.ofXY r.left (num 0)) (AngleDeg.ofNum (num 90))) (-1) := by
    intro v; simp only [halfPlane, Set.mem_ofPred_eq]; rw [vline_val]; simp
  have hR4 : ∀ v : Vec ℝ, decide (r.top ≤ v.y) = true ↔
      v.pt ∈ halfPlane (Line.ofAngle (Vec.ofXY (num 0) r.top) (AngleDeg.ofNum (num 0))) 1 := by
    intro v; simp only [halfPlane, Set.mem_ofPred_eq]; rw [hline_val]; simp
  set c1 := Poly.lineClipped (fun v => decide (v.x ≤ r.right)) poly.vertices
    (Line.ofAngle (Vec.ofXY r.right (num 0)) (AngleDeg.ofNum (num 90))) with hc1
  set c2 := Poly.lineClipped (fun v => decide (v.y ≤ r.bottom)) c1
    (Line.ofAngle (Vec.ofXY (num 0) r.top) (AngleDeg.ofNum (num 0))) with hc2
  have hbt : r.top ≤ r.bottom := by unfold Rect.bottom; linarith [hr.2]
  have s2 : ∀ v ∈ c2, v.pt ∈ {z : Pt | z.2 ≤ r.bottom} := by
    intro v hv
    rcases Poly.lineClipped_mem hv with ⟨h, _⟩ | ⟨e, _, _, rfl, hval⟩
    · simpa using h
    · have hint := (C21_intersection _ (Line.ofPoints e.1 e.2)).2.1 hval
      have hm : (Line.intersection (Line.ofAngle (Vec.ofXY (num 0) r.top) (AngleDeg.ofNum (num 0)))
          (Line.ofPoints e.1 e.2)).pt ∈ Line.pts (Line.ofAngle (Vec.ofXY (num 0) r.top) (AngleDeg.ofNum (num 0))) :=
        (hint ▸ Set.mem_singleton _ : _ ∈ Line.pts _ ∩ Line.pts _).1
      rw [Line.mem_pts, hline_val] at hm
      simp only [Set.mem_ofPred_eq]; linarith
  have cB : Convex ℝ {z : Pt | z.2 ≤ r.bottom} := by
    intro z hz w hw s t hs ht hst
    simp only [Set.mem_ofPred_eq] at hz hw ⊢
    obtain rfl : s = 1 - t := by linarith
    simp only [Prod.snd_add, Prod.smul_snd, smul_eq_mul]; nlinarith
  have s3 := Poly.clip_convex hR3 cB s2
  set c3 := Poly.lineClipped (fun v => decide (r.left ≤ v.x)) c2
    (Line.ofAngle (Vec.ofXY r.left (num 0)) (AngleDeg.ofNum (num 90))) with hc3
  have cC : Convex ℝ ({z : Pt | z.2 ≤ r.bottom} ∩ {z : Pt | r.left ≤ z.1}) := by
    refine cB.inter ?_
    intro z hz w hw s t hs ht hst
    simp only [Set.mem_ofPred_eq] at hz hw ⊢
    obtain rfl : s = 1 - t := by linarith
    simp only [Prod.fst_add, Prod.smul_fst, smul_eq_mul]; nlinarith
  have s4 := Poly.clip_convex hR4 cC (pts := c3) (fun v hv =>
    ⟨(s3 v hv).1, by have h := (hR3 v).mpr (s3 v hv).2; simpa using h⟩)
  intro v hv
  obtain ⟨⟨k1, k2⟩, k3⟩ := s4 v hv
  have k3' := (hR4 v).mpr k3
  exact ⟨k2, by simpa using k3', k1⟩

theorem hline_eq (y0 : ℝ) : Line.ofAngle (Vec.ofXY (num 0) y0) (AngleDeg.ofNum (num 0)) = ⟨0, 1, -y0⟩ := by
  have h : (AngleDeg.ofNum (num 0 : ℝ)).deg = 0 := by
    rw [num_real, Nat.cast_zero]; rw [AngleDeg.ofNum_of_mem] <;> norm_num
  simp only [Line.ofAngle, cosA_real, sinA_real, h, Vec.ofXY_x, Vec.ofXY_y, num_real]
  have h1 : (unit 0).1 = 1 := by simp [unit]
  have h2 : (unit 0).2 = 0 := by simp [unit]
  rw [h1, h2]; simp

/-- What the second step does in the counterexample below. -/
theorem Poly.clip_example : Poly.lineClipped (fun v => decide (v.y ≤ (4:ℝ))) [Vec.ofXY 0 8, Vec.ofXY 0 1, Vec.ofXY 3 2]
    ⟨0, 1, 0⟩ = [Vec.ofXY 0 0, Vec.ofXY 0 1, Vec.ofXY 3 2, Vec.ofXY 4 0] := by
  have i1 : (⟨0, 1, 0⟩ : Line ℝ).intersection (Line.ofPoints (Vec.ofXY 0 8) (Vec.ofXY 0 1)) = Vec.ofXY 0 0 := by
    rw [Line.intersection_real, EPSILON_real]; norm_num [Line.ofPoints]
  have i2 : (⟨0, 1, 0⟩ : Line ℝ).intersection (Line.ofPoints (Vec.ofXY 3 2) (Vec.ofXY 0 8)) = Vec.ofXY 4 0 := by
    rw [Line.intersection_real, EPSILON_real]; norm_num [Line.ofPoints]
  unfold Poly.lineClipped cyclicPairs
  simp only [List.cons_append, List.nil_append, List.zip_cons_cons, List.zip_nil_right]
  rw [Poly.clipLoop, if_neg (by norm_num), if_pos (by norm_num)]
  simp only
  rw [i1, if_neg (by simp), Poly.clipLoop, if_pos (by norm_num), if_pos (by norm_num), Poly.clipLoop,
    if_pos (by norm_num), if_neg (by norm_num)]
  simp only
  rw [i2, if_neg (by simp), Poly.clipLoop]
  rfl

/-- The whole clipping of the counterexample below. -/
theorem Poly.rect_example :
    ((Poly.ofList [Vec.ofXY 3 2, Vec.ofXY 0 8, Vec.ofXY 0 1]).rectClipped (Rect.ofLTLW 0 0 3 4)).vertices =
    [Vec.ofXY (3:ℝ) 2, Vec.ofXY 4 0, Vec.ofXY 0 0, Vec.ofXY 0 1] := by
  set poly : Poly ℝ := Poly.ofList [Vec.ofXY 3 2, Vec.ofXY 0 8, Vec.ofXY 0 1] with hpoly
  set r : Rect ℝ := Rect.ofLTLW 0 0 3 4 with hr
  have el : r.left = 0 := rfl
  have et : r.top = 0 := rfl
  have er : r.right = 3 := by simp [hr, Rect.right, Rect.ofLTLW, Rect.left]
  have eb : r.bottom = 4 := by simp [hr, Rect.bottom, Rect.ofLTLW, Rect.top]
  rw [Poly.rectClipped_vertices poly (by simp [hpoly, Poly.ofList])]
  simp only [el, et, er, eb]
  rw [C76_all_inside (fun v => decide (v.x ≤ (3:ℝ))) _ poly.vertices (by
    intro v hv
    simp only [hpoly, Poly.ofList, List.mem_cons, List.not_mem_nil, or_false] at hv
    rcases hv with rfl | rfl | rfl <;> norm_num)]
  have e1 : poly.vertices.rotate 1 = [Vec.ofXY 0 8, Vec.ofXY 0 1, Vec.ofXY 3 2] := rfl
  rw [e1, hline_eq, neg_zero, Poly.clip_example]
  rw [C76_all_inside (fun v => decide ((0:ℝ) ≤ v.x)) _ _ (by
    intro v hv
    simp only [List.mem_cons, List.not_mem_nil, or_false] at hv
    rcases hv with rfl | rfl | rfl | rfl <;> norm_num)]
  rw [C76_all_inside (fun v => decide ((0:ℝ) ≤ v.y)) _ _ (by
    intro v hv
    simp only [List.mem_rotate, List.mem_cons, List.not_mem_nil, or_false] at hv
    rcases hv with rfl | rfl | rfl | rfl <;> norm_num)]
  rfl

/-- **C77** is false in both parts: clipping the triangle (3,2), (0,8), (0,1) by the rectangle [0,3] × [0,4] yields the
vertex (4,0) outside the rectangle and the vertex (0,0) outside the triangle. -/
theorem C77_refuted : ∃ (poly : Poly ℝ) (r : Rect ℝ), r.Ok ∧
    (∃ v ∈ (poly.rectClipped r).vertices, v.pt ∉ r.pts) ∧
    (∃ v ∈ (poly.rectClipped r).vertices, v.pt ∉ convexHull ℝ {z | z ∈ poly.pts}) := by
  set poly : Poly ℝ := Poly.ofList [Vec.ofXY 3 2, Vec.ofXY 0 8, Vec.ofXY 0 1] with hpoly
  set r : Rect ℝ := Rect.ofLTLW 0 0 3 4 with hr
  have er : r.right = 3 := by simp [hr, Rect.right, Rect.ofLTLW, Rect.left]
  have hv : (poly.rectClipped r).vertices = [Vec.ofXY 3 2, Vec.ofXY 4 0, Vec.ofXY 0 0, Vec.ofXY 0 1] := Poly.rect_example
  refine ⟨poly, r, ?_, ⟨Vec.ofXY 4 0, ?_, ?_⟩, ⟨Vec.ofXY 0 0, ?_, ?_⟩⟩
  · constructor <;> norm_num [hr, Rect.ofLTLW]
  · rw [hv]; simp
  · intro h
    have := h.2.1
    rw [er] at this; norm_num at this
  · rw [hv]; simp
  · intro h
    have hc : Convex ℝ {z : Pt | 1 ≤ z.2} := by
      intro z hz w hw s t hs ht hst
      simp only [Set.mem_ofPred_eq] at hz hw ⊢
      obtain rfl : s = 1 - t := by linarith
      simp only [Prod.snd_add, Prod.smul_snd, smul_eq_mul]; nlinarith
    have : (Vec.ofXY (0:ℝ) 0).pt ∈ {z : Pt | 1 ≤ z.2} := by
      refine convexHull_min ?_ hc h
      intro z hz
      simp only [hpoly, Poly.pts, Poly.ofList, List.map_cons, List.map_nil, Set.mem_ofPred_eq, List.mem_cons,
        List.not_mem_nil, or_false, Vec.pt_ofXY] at hz
      rcases hz with rfl | rfl | rfl <;> norm_num
    norm_num at this

/-- An empty polygon is clipped to the single vertex (0,0), wherever the rectangle is. -/
theorem C77_refuted_empty : ∃ r : Rect ℝ, r.Ok ∧
    ∃ v ∈ ((Poly.ofList []).rectClipped r).vertices, v.pt ∉ r.pts := by
  refine ⟨Rect.ofLTLW 1 1 1 1, by constructor <;> norm_num [Rect.ofLTLW], Vec.zero, by
    simp [Poly.rectClipped, Poly.ofList, Poly.default], ?_⟩
  intro h
  have := h.1
  norm_num [Rect.ofLTLW, Rect.left, Vec.zero, Vec.pt] at this

/-- Non-vacuity of C77: the guard holds for a polygon reaching over three sides of the rectangle. -/
example : ∀ v ∈ (Poly.ofList [Vec.ofXY (-1:ℝ) (-1), Vec.ofXY 9 2, Vec.ofXY 1 3]).vertices,
    v.y ≤ (Rect.ofLTLW (0:ℝ) 0 4 4).bottom := by
  simp only [Poly.ofList, List.mem_cons, List.not_mem_nil, or_false, forall_eq_or_imp, forall_eq]
  norm_num [Rect.bottom, Rect.top, Rect.ofLTLW]

end PyrusGeom
