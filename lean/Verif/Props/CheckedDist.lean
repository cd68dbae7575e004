import Verif.Props.CheckedIeee

/-! # C163, continued: exactly when the distances of segments and polygons and the circle-circle intersection raise -/

namespace PyrusGeom
open Spec PyMathE Ieee

namespace Spec

/-- The distance of `p` from the segment raises: the length overflows; or the computed length is 0 and the distance from the first end
overflows; or the foot of the perpendicular is computed to be outside and the distance from one of the two ends overflows. -/
def SegDistOverflow (s : Seg Ieee) (p : Vec Ieee) : Prop :=
  DistOverflow s.origin s.terminal ∨
  (s.length = fin 0 ∧ DistOverflow s.origin p) ∨
  (s.length ≠ fin 0 ∧
    ¬ (num 0 ≤ (s.terminal.sub s.origin).innerProduct (p.sub s.origin) ∧
      (s.terminal.sub s.origin).innerProduct (p.sub s.origin) ≤ s.length * s.length) ∧
    (DistOverflow s.origin p ∨ DistOverflow s.terminal p))

/-- The edges of which `Polygon2D.dist` takes the distance: all edges, with three vertices or more the closing one too. -/
def distEdges (vs : List (Vec Ieee)) : List (Vec Ieee × Vec Ieee) :=
  if vs.length < 3 then chainPairs vs else cyclicPairs vs

end Spec

open Classical in
/-- **C163** When `Segment2D.dist(Vector2D)` raises. -/
theorem C163_segment_dist (s : Seg Ieee) (p : Vec Ieee) :
    s.distPointE p = if SegDistOverflow s p then .error .overflow else .ok (s.distPoint p) := by
  unfold Seg.distPointE Seg.distPoint
  by_cases h1 : DistOverflow s.origin s.terminal
  · have hl : s.lengthE = .error .overflow := Vec.distE_over h1
    rw [hl, if_pos (.inl h1)]; rfl
  have hl : s.lengthE = .ok s.length := Vec.distE_of h1
  rw [hl, except_ok_bind]
  by_cases h : s.length = fin 0
  · have hb := beq_zero_iff.mpr h
    rw [if_pos hb, if_pos hb]
    by_cases h2 : DistOverflow s.origin p
    · rw [Vec.distE_over h2, if_pos (.inr (.inl ⟨h, h2⟩))]
    · rw [Vec.distE_of h2, if_neg]
      rintro (c | c | c)
      · exact h1 c
      · exact h2 c.2
      · exact c.1 h
  · have hb : ¬ (s.length == num 0) = true := fun c => h (beq_zero_iff.mp c)
    rw [if_neg hb, if_neg hb]
    dsimp only
    rw [pyDiv_ieee h, except_ok_bind]
    by_cases hp : num 0 ≤ (s.terminal.sub s.origin).innerProduct (p.sub s.origin) ∧
        (s.terminal.sub s.origin).innerProduct (p.sub s.origin) ≤ s.length * s.length
    · rw [if_pos hp, if_pos hp, if_neg]
      · rfl
      rintro (c | c | c)
      · exact h1 c
      · exact h c.1
      · exact c.2.1 hp
    · rw [if_neg hp, if_neg hp]
      by_cases h2 : DistOverflow s.origin p
      · rw [Vec.dist2E_over h2, if_pos (show SegDistOverflow s p from .inr (.inr ⟨h, hp, .inl h2⟩))]; rfl
      · rw [Vec.dist2E_of h2, except_ok_bind]
        by_cases h3 : DistOverflow s.terminal p
        · rw [Vec.dist2E_over h3, if_pos (show SegDistOverflow s p from .inr (.inr ⟨h, hp, .inr h3⟩))]; rfl
        · rw [Vec.dist2E_of h3, except_ok_bind, sqrtE_nn ((Vec.dist2_nn _ _).pyMin (Vec.dist2_nn _ _)), if_neg]
          rintro (c | c | c)
          · exact h1 c
          · exact h2 c.2
          · exact c.2.2.elim h2 h3

open Classical in
/-- **C163** When `Segment2D.dist(Segment2D)` raises. -/
theorem C163_segment_seg (s o : Seg Ieee) :
    s.distSegE o = if s.existIntersection o = false ∧ (SegDistOverflow s o.origin ∨ SegDistOverflow s o.terminal ∨
      SegDistOverflow o s.origin ∨ SegDistOverflow o s.terminal) then .error .overflow else .ok (s.distSeg o) := by
  unfold Seg.distSegE Seg.distSeg
  cases s.existIntersection o
  · simp only [Bool.false_eq_true, if_false, true_and, C163_segment_dist]
    by_cases h1 : SegDistOverflow s o.origin
    · simp only [h1, if_true, true_or]; rfl
    by_cases h2 : SegDistOverflow s o.terminal
    · simp only [h1, h2, if_true, if_false, true_or, or_true]; rfl
    by_cases h3 : SegDistOverflow o s.origin
    · simp only [h1, h2, h3, if_true, if_false, true_or, or_true]; rfl
    by_cases h4 : SegDistOverflow o s.terminal
    · simp only [h1, h2, h3, h4, if_true, if_false, or_true]; rfl
    simp only [h1, h2, h3, h4, if_false, or_self]; rfl
  · simp

theorem Poly.distStepE_iff (p : Vec Ieee) (m : Option Ieee) (d : Vec Ieee × Vec Ieee) :
    (SegDistOverflow (Seg.ofPoints d.1 d.2) p → Poly.distStepE p m d = .error .overflow) ∧
    (¬ SegDistOverflow (Seg.ofPoints d.1 d.2) p → ∃ m', Poly.distStepE p m d = .ok m') := by
  unfold Poly.distStepE
  rw [C163_segment_dist]
  constructor
  · intro h; rw [if_pos h]; rfl
  · intro h; rw [if_neg h]; exact ⟨_, rfl⟩

theorem Poly.distLoopE_iff (p : Vec Ieee) : ∀ (l : List (Vec Ieee × Vec Ieee)) (m : Option Ieee),
    ((∃ d ∈ l, SegDistOverflow (Seg.ofPoints d.1 d.2) p) → l.foldlM (Poly.distStepE p) m = .error .overflow) ∧
    ((¬ ∃ d ∈ l, SegDistOverflow (Seg.ofPoints d.1 d.2) p) → ∃ m', l.foldlM (Poly.distStepE p) m = .ok m') := by
  intro l
  induction l with
  | nil => intro m; simp [pure, Except.pure]
  | cons d l ih =>
    intro m
    simp only [List.foldlM_cons]
    by_cases hd : SegDistOverflow (Seg.ofPoints d.1 d.2) p
    · rw [(Poly.distStepE_iff p m d).1 hd]
      exact ⟨fun _ => rfl, fun h => absurd ⟨d, List.mem_cons_self, hd⟩ h⟩
    · obtain ⟨m', hm⟩ := (Poly.distStepE_iff p m d).2 hd
      rw [hm, except_ok_bind]
      have e : (∃ x ∈ d :: l, SegDistOverflow (Seg.ofPoints x.1 x.2) p) ↔ ∃ x ∈ l, SegDistOverflow (Seg.ofPoints x.1 x.2) p := by
        simp [hd]
      rw [e]
      exact ih m'

theorem chain_concat {α : Type} {a x : α} {t l : List α} (h : a :: t = l ++ [x]) :
    chainPairs (a :: t) ++ [(x, a)] = chainPairs (a :: (t ++ [a])) := by
  have : a :: (t ++ [a]) = l ++ [x, a] := by rw [← List.cons_append, h, List.append_assoc]; rfl
  rw [this, h]
  clear h this
  induction l with
  | nil => rfl
  | cons b l ih =>
    cases l with
    | nil => rfl
    | cons c l => exact congrArg _ ih

/-- **C163** When `Polygon2D.dist` raises: there are at least two vertices, the point is not found inside (if that is asked), and the
distance from one of the edges raises. -/
theorem C163_polygon_dist (g : Poly Ieee) (p : Vec Ieee) (b : Bool) :
    (g.distE p b = .error .overflow ↔ (b = true → g.contains p true = false) ∧ g.vertices.length ≠ 1 ∧
      ∃ e ∈ distEdges g.vertices, SegDistOverflow (Seg.ofPoints e.1 e.2) p) ∧
    ∀ e, g.distE p b = .error e → e = .overflow := by
  obtain ⟨vs⟩ := g
  have main : ∀ (last : Option Ieee → Except PyErr (Option Ieee)) (Q : Prop),
      (∀ m, (Q → last m = .error .overflow) ∧ (¬ Q → ∃ m', last m = .ok m')) →
      ∀ X : Except PyErr (Option Ieee), X = (do
        let inside ← if b then Poly.containsE ⟨vs⟩ p true else .ok false
        if inside then return some (num 0)
        else
          let m ← (chainPairs vs).foldlM (Poly.distStepE p) none
          last m) → ((X = .error .overflow ↔ (b = true → Poly.contains ⟨vs⟩ p true = false) ∧
        ((∃ e ∈ chainPairs vs, SegDistOverflow (Seg.ofPoints e.1 e.2) p) ∨ Q)) ∧
      ∀ e, X = .error e → e = .overflow) := by
    intro last Q hlast X hX
    have tail : ((do
          let m ← (chainPairs vs).foldlM (Poly.distStepE p) none
          last m) : Except PyErr (Option Ieee)) = .error .overflow ∧
          ((∃ e ∈ chainPairs vs, SegDistOverflow (Seg.ofPoints e.1 e.2) p) ∨ Q) ∨
        (∃ m, ((do
          let m ← (chainPairs vs).foldlM (Poly.distStepE p) none
          last m) : Except PyErr (Option Ieee)) = .ok m) ∧
          ¬ ((∃ e ∈ chainPairs vs, SegDistOverflow (Seg.ofPoints e.1 e.2) p) ∨ Q) := by
      by_cases h : ∃ e ∈ chainPairs vs, SegDistOverflow (Seg.ofPoints e.1 e.2) p
      · left
        rw [(Poly.distLoopE_iff p (chainPairs vs) none).1 h]
        exact ⟨rfl, .inl h⟩
      · obtain ⟨m, hm⟩ := (Poly.distLoopE_iff p (chainPairs vs) none).2 h
        rw [hm, except_ok_bind]
        by_cases hq : Q
        · exact .inl ⟨(hlast m).1 hq, .inr hq⟩
        · exact .inr ⟨(hlast m).2 hq, fun c => c.elim h hq⟩
    have hin : X = if (b && Poly.contains ⟨vs⟩ p true) = true then .ok (some (num 0)) else (do
          let m ← (chainPairs vs).foldlM (Poly.distStepE p) none
          last m) := by
      rw [hX]
      cases b
      · rfl
      · simp only [if_true, Bool.true_and]
        rw [containsE_poly_of, except_ok_bind]
        rfl
    rw [hin]
    cases hc : (b && Poly.contains ⟨vs⟩ p true)
    · have hb : b = true → Poly.contains ⟨vs⟩ p true = false := by
        rintro rfl; simpa using hc
      simp only [Bool.false_eq_true, if_false]
      rcases tail with ⟨h1, h2⟩ | ⟨⟨m, h1⟩, h2⟩
      · rw [h1]; exact ⟨⟨fun _ => ⟨hb, h2⟩, fun _ => rfl⟩, fun e he => by cases he; rfl⟩
      · rw [h1]; exact ⟨⟨fun h => (by cases h), fun h => absurd h.2 h2⟩, fun e he => by cases he⟩
    · rw [Bool.and_eq_true] at hc
      simp only [if_true]
      refine ⟨⟨fun h => (by cases h), fun h => ?_⟩, fun e he => by cases he⟩
      rw [h.1 hc.1] at hc; exact absurd hc.2 (by decide)
  unfold Poly.distE
  match vs, main with
  | [], main =>
    have := main (fun m => .ok m) False (fun m => ⟨False.elim, fun _ => ⟨m, rfl⟩⟩) _ rfl
    refine ⟨Iff.trans this.1 ?_, this.2⟩
    simp [distEdges]
  | [v], _ =>
    dsimp only; rw [Vec.rE_of]
    exact ⟨⟨fun h => (by cases h), fun h => absurd rfl h.2.1⟩, fun e he => by cases he⟩
  | [v, w], main =>
    have := main (fun m => .ok m) False (fun m => ⟨False.elim, fun _ => ⟨m, rfl⟩⟩) _ rfl
    refine ⟨Iff.trans this.1 ?_, this.2⟩
    simp [distEdges]
  | v0 :: v1 :: v2 :: r, main =>
    have := main (fun m => Poly.distStepE p m ((v2 :: r).getLast (List.cons_ne_nil _ _), v0))
      (SegDistOverflow (Seg.ofPoints ((v2 :: r).getLast (List.cons_ne_nil _ _)) v0) p)
      (fun m => Poly.distStepE_iff p m ((v2 :: r).getLast (List.cons_ne_nil _ _), v0)) _ rfl
    refine ⟨Iff.trans this.1 ?_, this.2⟩
    have hne : v0 :: v1 :: v2 :: r ≠ [] := by simp
    have hm : ∀ e, e ∈ distEdges (v0 :: v1 :: v2 :: r) ↔ e ∈ chainPairs (v0 :: v1 :: v2 :: r) ∨
        e = ((v2 :: r).getLast (List.cons_ne_nil _ _), v0) := by
      intro e
      unfold distEdges
      rw [if_neg (by simp)]
      have hl : v0 :: v1 :: v2 :: r = (v0 :: v1 :: (v2 :: r).dropLast) ++ [(v2 :: r).getLast (List.cons_ne_nil _ _)] := by
        simp only [List.cons_append]
        rw [List.dropLast_append_getLast]
      rw [cyclicPairs_eq_chain, ← chain_concat hl, List.mem_append, List.mem_singleton]
    simp only [hm]
    refine and_congr_right fun _ => ?_
    constructor
    · rintro (⟨e, he, h⟩ | h)
      · exact ⟨by simp, e, .inl he, h⟩
      · exact ⟨by simp, _, .inr rfl, h⟩
    · rintro ⟨-, e, he | rfl, h⟩
      · exact .inl ⟨e, he, h⟩
      · exact .inr h

namespace Circle

open Classical in
/-- **C163** When `Circle2D.intersection(Circle2D)` raises: the circles are not found apart or inside each other, and one of the squares for
the intersection with their common line does. -/
theorem C163_circle_circle (c o : Circle Ieee) :
    let relX := o.center.x - c.center.x
    let relY := o.center.y - c.center.y
    let d := PyMath.sqrt (relX * relX + relY * relY)
    c.intersectionCircleE o = if ¬ (d < fabs (c.radius - o.radius) ∨ c.radius + o.radius < d) ∧
      InterOverflow c ⟨-(num 2) * relX, -(num 2) * relY, o.center.r2 - o.radius * o.radius - c.center.r2 + c.radius * c.radius⟩
      then .error .overflow else c.intersectionCircle o := by
  intro relX relY d
  unfold intersectionCircleE intersectionCircle
  dsimp only
  rw [sqrtE_nn (.add (.mul_self _) (.mul_self _)), except_ok_bind, (intersectionLineE_ieee c _).1]
  change (if d < fabs (c.radius - o.radius) ∨ c.radius + o.radius < d then _ else _) = _
  by_cases h : d < fabs (c.radius - o.radius) ∨ c.radius + o.radius < d
  · rw [if_pos h, if_neg (by simp [h])]
    exact (if_pos h).symm
  · rw [if_neg h]
    simp only [h, not_false_eq_true, true_and]
    split_ifs with h2
    · rfl
    · rfl

open Classical in
/-- **C163** When `Circle2D.circle_contains` (the test of the Delaunay triangulation) raises: the three points are not found collinear, and the
distance from the computed centre to the point or to the first of the three overflows. -/
theorem C163_circum_contains (q p0 p1 p2 : Vec Ieee) :
    let p10x := p1.x - p0.x
    let p10y := p1.y - p0.y
    let p20x := p2.x - p0.x
    let p20y := p2.y - p0.y
    let p10avg := p10x * (p0.x + p1.x) + p10y * (p0.y + p1.y)
    let p20avg := p20x * (p0.x + p2.x) + p20y * (p0.y + p2.y)
    let area := num 2 * (p10x * (p2.y - p1.y) - p10y * (p2.x - p1.x))
    let center : Vec Ieee := Vec.ofXY ((p20y * p10avg - p10y * p20avg) / area) ((p10x * p20avg - p20x * p10avg) / area)
    circumCircleContainsE q p0 p1 p2 = if ¬ fabs area < num 1 / num 10000000000 ∧ (DistOverflow center q ∨ DistOverflow center p0)
      then .error .overflow else .ok (circumCircleContains q p0 p1 p2) := by
  intro p10x p10y p20x p20y p10avg p20avg area center
  unfold circumCircleContainsE circumCircleContains
  dsimp only
  by_cases h : fabs area < num 1 / num 10000000000
  · refine (if_pos h).trans ?_
    rw [if_neg (fun c => c.1 h)]
    exact congrArg _ (if_pos h).symm
  · have hz := Tri.ne_zero_of_fabs_tiny h
    refine (if_neg h).trans ?_
    rw [pyDiv_ieee hz, except_ok_bind, pyDiv_ieee hz, except_ok_bind]
    by_cases h1 : DistOverflow center q
    · rw [Vec.dist2E_over h1, if_pos ⟨h, .inl h1⟩]; rfl
    rw [Vec.dist2E_of h1, except_ok_bind]
    by_cases h2 : DistOverflow center p0
    · rw [Vec.dist2E_over h2, if_pos ⟨h, .inr h2⟩]; rfl
    rw [Vec.dist2E_of h2, except_ok_bind, if_neg (fun c => c.2.elim h1 h2)]
    exact congrArg _ (if_neg h).symm

end Circle

/-- **C163** The conditions are met by finite numbers: the distance of (0, 1) from the segment from (2^600, 0) to the origin is 1, and
raises. -/
theorem C163_segment_dist_example :
    (Seg.ofPoints ⟨fin (2 ^ 600), fin 0, true⟩ ⟨fin 0, fin 0, true⟩ : Seg Ieee).distPointE ⟨fin 0, fin 1, true⟩ = .error .overflow := by
  rw [C163_segment_dist, if_pos]
  refine .inl (.inl ?_)
  have e : (fin (2 ^ 600) - fin 0 : Ieee) = fin (2 ^ 600) := by
    change Ieee.ofReal (2 ^ 600 + -0) = _
    rw [Ieee.ofReal_of_le (n := 600) (by norm_num) (by rw [neg_zero, add_zero, abs_of_pos (by positivity)]), neg_zero, add_zero,
      rne_of_isDouble]
    have := isDouble_pow 600 (by norm_num)
    rwa [show (600 : ℤ) = ((600 : ℕ) : ℤ) from rfl, zpow_natCast] at this
  change SqOverflow (fin (2 ^ 600) - fin 0 : Ieee)
  rw [e]
  change (2 ^ 54 - 1) * 2 ^ 970 ≤ (2 : ℝ) ^ 600 * 2 ^ 600
  rw [← pow_add, show (2 : ℝ) ^ (600 + 600) = 2 ^ 230 * 2 ^ 970 by rw [← pow_add]]
  norm_num

end PyrusGeom
