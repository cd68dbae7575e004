import Verif.Props.Mirror

/-!
# Property C176: order of arguments, direction of segments, exchange of the coordinates

What is symmetric in its arguments is so exactly, in every arithmetic: in exact arithmetic, for every odd rounding, and with overflow,
infinities and NaN. Only the laws of `CommNum` are used.
-/

namespace PyrusGeom

section
variable (K : Type) [Add K] [Sub K] [Mul K] [Div K] [Neg K] [NatCast K] [LT K] [LE K]
  [DecidableLT K] [DecidableLE K] [BEq K] [PyMath K]

/-- Sums, products and comparisons for equality do not depend on the order. -/
class CommNum : Prop extends OddNum K where
  add_comm : ∀ a b : K, a + b = b + a
  mul_comm : ∀ a b : K, a * b = b * a
  beq_comm : ∀ a b : K, (a == b) = (b == a)
  eq_of_beq : ∀ a b : K, (a == b) = true → a = b
end

noncomputable instance : CommNum ℝ where
  add_comm := add_comm
  mul_comm := mul_comm
  beq_comm a b := by rw [Bool.eq_iff_iff, beq_iff_eq, beq_iff_eq, eq_comm]
  eq_of_beq a b h := beq_iff_eq.mp h

instance : CommNum (FP double) where
  add_comm a b := FP.ext (congrArg rne (_root_.add_comm _ _))
  mul_comm a b := FP.ext (congrArg rne (_root_.mul_comm _ _))
  beq_comm a b := by
    change decide (a.val = b.val) = decide (b.val = a.val)
    rw [decide_eq_decide, eq_comm]
  eq_of_beq a b h := FP.ext (of_decide_eq_true h)

open Ieee Classical in
instance : CommNum Ieee where
  add_comm a b := by
    change Ieee.add a b = Ieee.add b a
    rcases a with _ | s | x <;> rcases b with _ | t | y <;> simp only [Ieee.add, add_comm]
    cases s <;> cases t <;> rfl
  mul_comm a b := by
    change Ieee.mul a b = Ieee.mul b a
    rcases a with _ | s | x <;> rcases b with _ | t | y <;> simp only [Ieee.mul, mul_comm]
    · cases s <;> cases t <;> rfl
    · rw [bne_comm]
    · rw [bne_comm]
  beq_comm a b := by
    rw [Bool.eq_iff_iff, Ieee.beq_iff, Ieee.beq_iff]
    rcases a with _ | s | x <;> rcases b with _ | t | y <;> simp [Ieee.same, eq_comm]
  eq_of_beq a b h := by
    rw [Ieee.beq_iff] at h
    rcases a with _ | s | x <;> rcases b with _ | t | y <;> simp_all [Ieee.same]

section
variable {K : Type} [Add K] [Sub K] [Mul K] [Div K] [Neg K] [NatCast K] [LT K] [LE K]
  [DecidableLT K] [DecidableLE K] [BEq K] [PyMath K] [CommNum K]

theorem Vec.eq_comm' (v w : Vec K) : v.eq w = w.eq v := by
  unfold Vec.eq
  rw [CommNum.beq_comm v.x, CommNum.beq_comm v.y]

/-- **C176** The intersection of two lines, and whether they are parallel, in either order. -/
theorem C176_line (l m : Line K) : l.intersection m = m.intersection l ∧ l.isParallel m = m.isParallel l := by
  constructor
  · unfold Line.intersection
    have h1 : m.a * l.b - m.b * l.a = -(l.a * m.b - l.b * m.a) := by
      rw [← OddNum.sub_swap, CommNum.mul_comm m.a, CommNum.mul_comm m.b]
    have h2 : m.b * l.c - l.b * m.c = -(l.b * m.c - m.b * l.c) := OddNum.sub_swap _ _
    have h3 : l.a * m.c - m.a * l.c = -(m.a * l.c - l.a * m.c) := OddNum.sub_swap _ _
    simp only [h1, h2, h3, OddNum.fabs_neg]
    by_cases h : fabs (l.a * m.b - l.b * m.a) < EPSILON
    · rw [if_pos h, if_pos h]
    · rw [if_neg h, if_neg h]
      have h0 : (l.a * m.b - l.b * m.a == num 0) = false := by
        rw [← Bool.not_eq_true]; exact fun h' => h (OddNum.zero_small _ h')
      have hd : ∀ a : K, -a / -(l.a * m.b - l.b * m.a) = a / (l.a * m.b - l.b * m.a) := fun a => by
        rw [OddNum.div_neg _ _ h0, OddNum.neg_div, OddNum.neg_neg]
      rw [hd, hd]
  · unfold Line.isParallel
    rw [OddNum.sub_swap (l.a * m.b), OddNum.fabs_neg]

theorem dsa_swap (a b c : Vec K) : Tri.dsa b a c = -(Tri.dsa a b c) := by
  unfold Tri.dsa
  rw [CommNum.add_comm, ← OddNum.neg_add, ← OddNum.mul_neg, ← OddNum.mul_neg, ← OddNum.sub_swap, ← OddNum.sub_swap]

theorem neg_mul_neg' (a b : K) : -a * -b = a * b := by rw [OddNum.neg_mul, OddNum.mul_neg, OddNum.neg_neg]

theorem neg_beq_zero (a : K) : (-a == num 0) = (a == num 0) := sg_beq_zero true a

/-- **C176** Intersections of two segments in either order. -/
theorem C176_segment (s o : Seg K) (b : Bool) : s.existIntersection o = o.existIntersection s ∧
    s.existIntersectionExceptEndpoint o = o.existIntersectionExceptEndpoint s ∧ s.intersectionSeg o b = o.intersectionSeg s b := by
  have h2 : s.existIntersectionExceptEndpoint o = o.existIntersectionExceptEndpoint s := by
    unfold Seg.existIntersectionExceptEndpoint
    rw [Bool.and_comm]
  refine ⟨?_, h2, ?_⟩
  · unfold Seg.existIntersection
    simp only
    by_cases h : Tri.dsa s.origin s.terminal o.origin * Tri.dsa s.origin s.terminal o.terminal < num 0 ∧
      Tri.dsa o.origin o.terminal s.origin * Tri.dsa o.origin o.terminal s.terminal < num 0
    · rw [if_pos h, if_pos h.symm]
    · refine (if_neg h).trans (Eq.trans ?_ (if_neg (fun h' => h (And.symm h'))).symm)
      cases s.origin.eq s.terminal <;> cases o.origin.eq o.terminal <;> simp only [Bool.false_eq_true, if_true, if_false]
      · generalize (Tri.dsa s.origin s.terminal o.origin == num 0 && s.checkIntersectsOnLine o.origin) = x1
        generalize (Tri.dsa s.origin s.terminal o.terminal == num 0 && s.checkIntersectsOnLine o.terminal) = x2
        generalize (Tri.dsa o.origin o.terminal s.origin == num 0 && o.checkIntersectsOnLine s.origin) = x3
        generalize (Tri.dsa o.origin o.terminal s.terminal == num 0 && o.checkIntersectsOnLine s.terminal) = x4
        cases x1 <;> cases x2 <;> cases x3 <;> cases x4 <;> rfl
      · exact Vec.eq_comm' _ _
  · unfold Seg.intersectionSeg
    simp only
    rw [(C176_line s.line o.line).1, h2, Bool.or_right_comm]

theorem check_swap (s : Seg K) (p : Vec K) : s.swap.checkIntersectsOnLine p = s.checkIntersectsOnLine p := by
  unfold Seg.checkIntersectsOnLine Seg.swap
  rw [CommNum.beq_comm s.terminal.x]
  split
  · exact Bool.or_comm _ _
  · exact Bool.or_comm _ _

/-- **C176** A segment and the reversed segment: the same length, points and intersections. -/
theorem C176_reverse (s o : Seg K) (l : Line K) (p : Vec K) :
    s.swap.length = s.length ∧ s.swap.isValid = s.isValid ∧ s.swap.contains p = s.contains p ∧ s.swap.onSegment p = s.onSegment p ∧
    s.swap.existIntersection o = s.existIntersection o ∧ o.existIntersection s.swap = o.existIntersection s ∧
    s.swap.existIntersectionExceptEndpoint o = s.existIntersectionExceptEndpoint o ∧
    s.swap.existIntersectionLine l = s.existIntersectionLine l := by
  have hd : ∀ v w : Vec K, v.dist2 w = w.dist2 v := fun v w => by
    unfold Vec.dist2
    rw [OddNum.sub_swap v.x, OddNum.sub_swap v.y]
    exact congrArg₂ (· + ·) (neg_mul_neg' _ _) (neg_mul_neg' _ _)
  have he : s.swap.existIntersection o = s.existIntersection o := by
    have e1 : s.swap.origin = s.terminal := rfl
    have e2 : s.swap.terminal = s.origin := rfl
    unfold Seg.existIntersection
    simp only [e1, e2, check_swap]
    rw [dsa_swap s.origin s.terminal o.origin, dsa_swap s.origin s.terminal o.terminal, neg_mul_neg', neg_beq_zero, neg_beq_zero,
      CommNum.mul_comm (Tri.dsa o.origin o.terminal s.terminal), Vec.eq_comm' s.terminal]
    by_cases h : s.origin.eq s.terminal = true
    · have hx : s.origin.x = s.terminal.x := CommNum.eq_of_beq _ _ (Bool.and_eq_true_iff.mp h).1
      have hy : s.origin.y = s.terminal.y := CommNum.eq_of_beq _ _ (Bool.and_eq_true_iff.mp h).2
      have q1 : Tri.dsa o.origin o.terminal s.terminal = Tri.dsa o.origin o.terminal s.origin := by unfold Tri.dsa; rw [hx, hy]
      have q2 : o.checkIntersectsOnLine s.terminal = o.checkIntersectsOnLine s.origin := by
        unfold Seg.checkIntersectsOnLine; rw [hx, hy]
      have q3 : s.terminal.eq o.origin = s.origin.eq o.origin := by unfold Vec.eq; rw [hx, hy]
      rw [if_pos h, if_pos h, q1, q2, q3]
    · rw [if_neg h, if_neg h]
      generalize (Tri.dsa s.origin s.terminal o.origin == num 0 && s.checkIntersectsOnLine o.origin) = x1
      generalize (Tri.dsa s.origin s.terminal o.terminal == num 0 && s.checkIntersectsOnLine o.terminal) = x2
      generalize (Tri.dsa o.origin o.terminal s.origin == num 0 && o.checkIntersectsOnLine s.origin) = x3
      generalize (Tri.dsa o.origin o.terminal s.terminal == num 0 && o.checkIntersectsOnLine s.terminal) = x4
      rw [Bool.or_right_comm]
  refine ⟨?_, ?_, ?_, ?_, he, ?_, ?_, ?_⟩
  · unfold Seg.length Vec.dist
    exact congrArg PyMath.sqrt (hd _ _)
  · unfold Seg.isValid
    exact congrArg _ (weakly_symm _ _)
  · unfold Seg.contains Seg.swap
    rw [CommNum.mul_comm (p.x - s.terminal.x), CommNum.mul_comm (p.y - s.terminal.y)]
  · unfold Seg.onSegment
    rw [check_swap]
    change (Tri.dsa s.terminal s.origin p == num 0 && _) = _
    rw [dsa_swap, neg_beq_zero]
  · rw [(C176_segment o s.swap true).1, he, (C176_segment o s true).1]
  · unfold Seg.existIntersectionExceptEndpoint Seg.swap
    simp only
    rw [dsa_swap s.origin s.terminal o.origin, dsa_swap s.origin s.terminal o.terminal, neg_mul_neg',
      CommNum.mul_comm (Tri.dsa o.origin o.terminal s.terminal)]
  · unfold Seg.existIntersectionLine Seg.swap
    simp only
    rw [CommNum.mul_comm]

/-- **C176** The triangle test does not depend on the order of the corners. -/
theorem C176_triangle (a b c p : Vec K) : Tri.triContains b a c p = Tri.triContains a b c p ∧
    Tri.triContains b c a p = Tri.triContains a b c p := by
  have ho : ∀ v w : Vec K, v.outerProduct w = -(w.outerProduct v) := fun v w => by
    unfold Vec.outerProduct
    rw [← OddNum.sub_swap, CommNum.mul_comm v.x, CommNum.mul_comm v.y, CommNum.mul_comm w.y]
  have n1 : ∀ a : K, decide (num 0 ≤ -a) = decide (a ≤ num 0) := fun a =>
    decide_eq_decide.mpr (by have := OddNum.neg_le (num 0 : K) a; rwa [OddNum.neg_zero] at this)
  have n2 : ∀ a : K, decide (-a ≤ num 0) = decide (num 0 ≤ a) := fun a =>
    decide_eq_decide.mpr (by have := OddNum.neg_le a (num 0 : K); rwa [OddNum.neg_zero] at this)
  unfold Tri.triContains
  simp only
  constructor
  · rw [ho (Vec.ofVec (b.sub p)) (Vec.ofVec (a.sub p)), ho (Vec.ofVec (a.sub p)) (Vec.ofVec (c.sub p)),
      ho (Vec.ofVec (c.sub p)) (Vec.ofVec (b.sub p))]
    simp only [n1, n2]
    generalize (Vec.ofVec (a.sub p)).outerProduct (Vec.ofVec (b.sub p)) = x
    generalize (Vec.ofVec (b.sub p)).outerProduct (Vec.ofVec (c.sub p)) = y
    generalize (Vec.ofVec (c.sub p)).outerProduct (Vec.ofVec (a.sub p)) = z
    rw [Bool.or_comm, Bool.and_right_comm, Bool.and_right_comm (decide (x ≤ num 0))]
  · generalize (Vec.ofVec (a.sub p)).outerProduct (Vec.ofVec (b.sub p)) = x
    generalize (Vec.ofVec (b.sub p)).outerProduct (Vec.ofVec (c.sub p)) = y
    generalize (Vec.ofVec (c.sub p)).outerProduct (Vec.ofVec (a.sub p)) = z
    cases decide (num 0 ≤ x) <;> cases decide (num 0 ≤ y) <;> cases decide (num 0 ≤ z) <;> cases decide (x ≤ num 0) <;>
      cases decide (y ≤ num 0) <;> cases decide (z ≤ num 0) <;> rfl

/-! ## Exchanging x and y -/

def Vec.tr (v : Vec K) : Vec K := ⟨v.y, v.x, v.valid⟩
def Line.tr (l : Line K) : Line K := ⟨l.b, l.a, l.c⟩
def Seg.tr (s : Seg K) : Seg K := ⟨s.origin.tr, s.terminal.tr⟩
def Tri.tr (t : Tri K) : Tri K := ⟨t.a.tr, t.b.tr, t.c.tr⟩
def Circle.tr (c : Circle K) : Circle K := ⟨c.center.tr, c.radius⟩
def Poly.tr (p : Poly K) : Poly K := ⟨p.vertices.map Vec.tr⟩

theorem tr_outer (v w : Vec K) : v.tr.outerProduct w.tr = -(v.outerProduct w) := by
  unfold Vec.outerProduct Vec.tr
  rw [← OddNum.sub_swap]

theorem tr_dsa (a b c : Vec K) : Tri.dsa a.tr b.tr c.tr = -(Tri.dsa a b c) := by
  rw [← dsa_swap]
  unfold Tri.dsa Vec.tr
  simp only
  rw [CommNum.mul_comm (a.y - c.y), CommNum.mul_comm (b.y - c.y), OddNum.sub_swap c.x, OddNum.sub_swap c.y b.y,
    OddNum.neg_mul, OddNum.mul_neg]

/-- **C176** Vectors with exchanged coordinates. -/
theorem C176_transpose_vector (v w : Vec K) (k : K) :
    v.tr.add w.tr = (v.add w).tr ∧ v.tr.sub w.tr = (v.sub w).tr ∧ v.tr.mul k = (v.mul k).tr ∧
    v.tr.r2 = v.r2 ∧ v.tr.r = v.r ∧ v.tr.dist2 w.tr = v.dist2 w ∧ v.tr.dist w.tr = v.dist w ∧
    v.tr.innerProduct w.tr = v.innerProduct w ∧ v.tr.outerProduct w.tr = -(v.outerProduct w) ∧
    v.tr.eq w.tr = v.eq w ∧ v.tr.equalsWeakly w.tr = v.equalsWeakly w := by
  have h2 : ∀ v w : Vec K, v.tr.dist2 w.tr = v.dist2 w := fun v w => by
    unfold Vec.dist2 Vec.tr; exact CommNum.add_comm _ _
  have hr : ∀ v : Vec K, v.tr.r2 = v.r2 := fun v => by
    unfold Vec.r2 Vec.tr; exact CommNum.add_comm _ _
  refine ⟨rfl, rfl, rfl, hr v, congrArg PyMath.sqrt (hr v), h2 v w, congrArg PyMath.sqrt (h2 v w), CommNum.add_comm _ _, tr_outer v w,
    Bool.and_comm _ _, ?_⟩
  unfold Vec.equalsWeakly Vec.tr
  exact Bool.and_comm _ _

theorem tr_intersection (l m : Line K) : l.tr.intersection m.tr = (l.intersection m).tr := by
  rw [(C176_line l.tr m.tr).1]
  unfold Line.intersection Line.tr
  simp only
  rw [CommNum.mul_comm m.b, CommNum.mul_comm m.a]
  by_cases h : fabs (l.a * m.b - l.b * m.a) < EPSILON
  · rw [if_pos h, if_pos h]; rfl
  · rw [if_neg h, if_neg h]; rfl

/-- **C176** Lines with exchanged coordinates; the line through two points also gets the other direction. -/
theorem C176_transpose_line (l m : Line K) (p q : Vec K) :
    l.tr.intersection m.tr = (l.intersection m).tr ∧ l.tr.isParallel m.tr = l.isParallel m ∧
    Line.ofPoints p.tr q.tr = (Line.ofPoints p q).tr.flip false false true := by
  refine ⟨tr_intersection l m, ?_, ?_⟩
  · unfold Line.isParallel Line.tr
    rw [OddNum.sub_swap, OddNum.fabs_neg, CommNum.mul_comm m.b, CommNum.mul_comm l.b]
  · unfold Line.ofPoints Line.tr Line.flip Vec.tr
    simp only [sg, Bool.false_bne, if_true, OddNum.neg_neg]
    rw [OddNum.sub_swap ((q.x - p.x) * p.y)]

/-- **C176** Segments with exchanged coordinates. -/
theorem C176_transpose_segment (s o : Seg K) (p : Vec K) :
    s.tr.length = s.length ∧ s.tr.contains p.tr = s.contains p ∧
    s.tr.existIntersectionExceptEndpoint o.tr = s.existIntersectionExceptEndpoint o ∧ s.tr.distPoint p.tr = s.distPoint p ∧
    s.tr.nearestPoint p.tr = (s.nearestPoint p).tr ∧ s.tr.projection p.tr = (s.projection p).tr ∧
    s.tr.farthestDist p.tr = s.farthestDist p := by
  have hv := fun v w : Vec K => C176_transpose_vector v w (num 0)
  have ho : s.tr.origin = s.origin.tr := rfl
  have ht : s.tr.terminal = s.terminal.tr := rfl
  have h2 : ∀ v w : Vec K, v.tr.dist2 w.tr = v.dist2 w := fun v w => (hv v w).2.2.2.2.2.1
  have hl : s.tr.length = s.length := (hv _ _).2.2.2.2.2.2.1
  have hi : ∀ v w : Vec K, v.tr.innerProduct w.tr = v.innerProduct w := fun v w => (hv v w).2.2.2.2.2.2.2.1
  have hsub : ∀ v w : Vec K, v.tr.sub w.tr = (v.sub w).tr := fun v w => rfl
  have hr2 : ∀ v : Vec K, v.tr.r2 = v.r2 := fun v => (hv v v).2.2.2.1
  have hr : ∀ v : Vec K, v.tr.r = v.r := fun v => (hv v v).2.2.2.2.1
  have hd : ∀ v w : Vec K, v.tr.dist w.tr = v.dist w := fun v w => (hv v w).2.2.2.2.2.2.1
  have hdir : ∀ (v : Vec K) (r : K), Vec.ofXY (v.tr.x / r) (v.tr.y / r) = (Vec.ofXY (v.x / r) (v.y / r)).tr := fun _ _ => rfl
  refine ⟨hl, Bool.and_comm _ _, ?_, ?_, ?_, ?_, ?_⟩
  · unfold Seg.existIntersectionExceptEndpoint Seg.tr
    simp only [tr_dsa, neg_mul_neg']
  · unfold Seg.distPoint
    simp only [hl, ho, ht, hsub, hi, h2, tr_dsa, OddNum.neg_div, OddNum.fabs_neg, hd]
  · unfold Seg.nearestPoint
    simp only [ho, ht, hsub, hi, hr2]
    split
    · rfl
    split
    · rfl
    split
    · rfl
    · rfl
  · unfold Seg.projection
    simp only [ho, ht, hsub, hr, hdir, hi]
    split
    · rfl
    split
    · rfl
    · rfl
  · unfold Seg.farthestDist
    simp only [ho, ht, h2]

/-- **C176** Triangles, circles and polygons with exchanged coordinates. -/
theorem C176_transpose (t : Tri K) (c : Circle K) (g : Poly K) (p : Vec K) :
    t.tr.contains p.tr = t.contains p ∧ t.tr.area = t.area ∧ c.tr.contains p.tr = c.contains p ∧
    g.tr.doubleSignedArea = -g.doubleSignedArea ∧ g.tr.area = g.area ∧ g.tr.isCounterClockwise = g.isClockwise ∧
    g.tr.isClockwise = g.isCounterClockwise := by
  have hv := fun v w : Vec K => C176_transpose_vector v w (num 0)
  have n1 : ∀ a : K, decide (num 0 ≤ -a) = decide (a ≤ num 0) := fun a =>
    decide_eq_decide.mpr (by have := OddNum.neg_le (num 0 : K) a; rwa [OddNum.neg_zero] at this)
  have n2 : ∀ a : K, decide (-a ≤ num 0) = decide (num 0 ≤ a) := fun a =>
    decide_eq_decide.mpr (by have := OddNum.neg_le a (num 0 : K); rwa [OddNum.neg_zero] at this)
  have n3 : ∀ a : K, decide (num 0 < -a) = decide (a < num 0) := fun a =>
    decide_eq_decide.mpr (by have := OddNum.neg_lt (num 0 : K) a; rwa [OddNum.neg_zero] at this)
  have n4 : ∀ a : K, decide (-a < num 0) = decide (num 0 < a) := fun a =>
    decide_eq_decide.mpr (by have := OddNum.neg_lt a (num 0 : K); rwa [OddNum.neg_zero] at this)
  have hg : g.tr.doubleSignedArea = -g.doubleSignedArea := by
    unfold Poly.doubleSignedArea
    simp only [Poly.tr, List.length_map]
    split
    · rw [OddNum.neg_zero]
    · have hc : cyclicPairs (g.vertices.map Vec.tr) = (cyclicPairs g.vertices).map fun e => (e.1.tr, e.2.tr) := by
        rcases g.vertices with _ | ⟨a, r⟩
        · rfl
        · simp only [cyclicPairs, List.map_cons]
          rw [show List.map Vec.tr r ++ [a.tr] = List.map Vec.tr (r ++ [a]) by simp, ← List.map_cons, List.zip_map]
          rfl
      rw [hc, List.foldl_map]
      have key : ∀ (l : List (Vec K × Vec K)) (a : K),
          l.foldl (fun acc e => acc + (e.1.tr.x * e.2.tr.y - e.2.tr.x * e.1.tr.y)) (-a) =
            -(l.foldl (fun acc e => acc + (e.1.x * e.2.y - e.2.x * e.1.y)) a) := by
        intro l
        induction l with
        | nil => intro a; rfl
        | cons e l ih =>
          intro a
          simp only [List.foldl_cons]
          rw [← ih, ← OddNum.neg_add, ← OddNum.sub_swap]
          congr 2
          unfold Vec.tr
          simp only
          rw [CommNum.mul_comm e.1.y, CommNum.mul_comm e.2.y]
      have := key (cyclicPairs g.vertices) (num 0)
      rwa [OddNum.neg_zero] at this
  refine ⟨?_, ?_, ?_, hg, ?_, ?_, ?_⟩
  · unfold Tri.contains Tri.triContains
    have ho : ∀ v w : Vec K, (Vec.ofVec (v.tr.sub p.tr)).outerProduct (Vec.ofVec (w.tr.sub p.tr)) =
        -((Vec.ofVec (v.sub p)).outerProduct (Vec.ofVec (w.sub p))) := fun v w => tr_outer (Vec.ofVec (v.sub p)) (Vec.ofVec (w.sub p))
    simp only [Tri.tr, ho, n1, n2]
    rw [Bool.or_comm]
  · unfold Tri.area
    have : (t.tr.b.sub t.tr.a).outerProduct (t.tr.c.sub t.tr.a) = _ := tr_outer (t.b.sub t.a) (t.c.sub t.a)
    rw [this, OddNum.fabs_neg]
  · unfold Circle.contains Circle.tr
    simp only [(hv c.center p).2.2.2.2.2.1]
  · unfold Poly.area
    rw [hg, OddNum.neg_mul, OddNum.fabs_neg]
  · unfold Poly.isCounterClockwise Poly.isClockwise
    rw [hg, n3]
  · unfold Poly.isCounterClockwise Poly.isClockwise
    rw [hg, n4]

end

/-! ## The distance of two segments -/

/-- **C176** The distance of two segments in double precision does not depend on their order. -/
theorem C176_dist_partial (s o : Seg (FP double)) : s.distSeg o = o.distSeg s := by
  unfold Seg.distSeg
  rw [(C176_segment s o true).1]
  split
  · rfl
  · apply FP.ext
    simp only [fp_pyMin_val]
    generalize (s.distPoint o.origin).val = x1
    generalize (s.distPoint o.terminal).val = x2
    generalize (o.distPoint s.origin).val = x3
    generalize (o.distPoint s.terminal).val = x4
    rw [min_comm x3 x4, min_assoc, min_comm (min x1 x2), min_comm x3 x4]
    ac_rfl

open Ieee in
/-- **C176** is false for this distance and infinite coordinates: for the segment from (0, 0) to (inf, inf) and the point (1, 1) as a
segment it is NaN in one order and √2 in the other. -/
theorem C176_dist_refuted : ∃ s o : Seg Ieee, s.distSeg o = nan ∧ o.distSeg s = fin (rne √2) := by
  have o0 : Ieee.ofReal 0 = fin 0 := by rw [Ieee.ofReal_of_le (n := 0) (by norm_num) (by simp), rne_zero]
  have d1 : rne 1 = 1 := by
    have := rne_of_isDouble (isDouble_nat (n := 1) (by norm_num))
    simpa using this
  have o1 : Ieee.ofReal 1 = fin 1 := by rw [Ieee.ofReal_of_le (n := 0) (by norm_num) (by simp), d1]
  have oN : Ieee.ofReal (-1) = fin (-1) := by rw [Ieee.ofReal_neg, o1]; rfl
  have d2 : rne 2 = 2 := by
    have := rne_of_isDouble (isDouble_nat (n := 2) (by norm_num))
    simpa using this
  have e1 : (fin 0 - fin 1 : Ieee) = fin (-1) := by
    change Ieee.ofReal (0 + -1) = _
    rw [zero_add, oN]
  have e2 : (fin 1 - fin 0 : Ieee) = fin 1 := by
    change Ieee.ofReal (1 + -0) = _
    rw [neg_zero, add_zero, o1]
  have e3 : ∀ x : ℝ, (fin x - fin x : Ieee) = fin 0 := fin_sub_self
  have e4 : ∀ x : ℝ, (inf false - fin x : Ieee) = inf false := fun _ => rfl
  have e5 : ∀ x : ℝ, (fin x - inf false : Ieee) = inf true := fun _ => rfl
  have m1 : (fin 1 * fin 1 : Ieee) = fin 1 := by
    change Ieee.ofReal (1 * 1) = _
    rw [one_mul, o1]
  have m2 : (fin (-1) * inf false : Ieee) = inf true := by
    change (if (-1 : ℝ) = 0 then nan else inf (decide ((-1 : ℝ) < 0) != false)) = _
    norm_num
  have m3 : (inf false * fin 1 : Ieee) = inf false := by
    change (if (1 : ℝ) = 0 then nan else inf (false != decide ((1 : ℝ) < 0))) = _
    norm_num
  have m4 : (fin 0 * fin 0 : Ieee) = fin 0 := by
    change Ieee.ofReal (0 * 0) = _
    rw [mul_zero, o0]
  have m5 : (inf true * inf true : Ieee) = inf false := rfl
  have m6 : (inf false * inf false : Ieee) = inf false := rfl
  have m7 : ∀ x : Ieee, nan * x = nan := fun x => by rcases x with _ | _ | _ <;> rfl
  have a1 : (inf true + inf false : Ieee) = nan := rfl
  have a3 : (inf false + inf false : Ieee) = inf false := rfl
  have a4 : (fin 0 + fin 0 : Ieee) = fin 0 := by
    change Ieee.ofReal (0 + 0) = _
    rw [add_zero, o0]
  have a5 : (fin 1 + fin 1 : Ieee) = fin 2 := by
    change Ieee.ofReal (1 + 1) = _
    rw [one_add_one_eq_two, Ieee.ofReal_of_le (n := 1) (by norm_num) (by simp), d2]
  have v1 : (nan / inf false : Ieee) = nan := rfl
  have sq1 : PyMath.sqrt (inf false) = (inf false : Ieee) := rfl
  have sq2 : PyMath.sqrt (fin 0) = (fin 0 : Ieee) := by
    change (if (0 : ℝ) ≤ 0 then Ieee.ofReal (Real.sqrt 0) else nan) = _
    rw [if_pos le_rfl, Real.sqrt_zero, o0]
  have sq3 : PyMath.sqrt (fin 2) = (fin (rne √2) : Ieee) := by
    change (if (0 : ℝ) ≤ 2 then Ieee.ofReal (Real.sqrt 2) else nan) = _
    rw [if_pos (by norm_num), Ieee.ofReal_of_le (n := 1) (by norm_num)]
    rw [abs_of_nonneg (Real.sqrt_nonneg _), Real.sqrt_le_left (by norm_num)]; norm_num
  have bq : ∀ x y : Ieee, (x == y) = true ↔ Ieee.same x y := Ieee.beq_iff
  have b1 : ((nan : Ieee) == fin 0) = false := by rw [← Bool.not_eq_true, bq]; exact id
  have b2 : ((inf false : Ieee) == fin 0) = false := by rw [← Bool.not_eq_true, bq]; exact id
  have b3 : ((fin 0 : Ieee) == inf false) = false := by rw [← Bool.not_eq_true, bq]; exact id
  have b4 : ∀ x, ((fin x : Ieee) == fin x) = true := fun x => by rw [bq]; exact rfl
  have l2 : (fin 0 : Ieee) ≤ inf false := rfl
  have l3 : (inf false : Ieee) ≤ inf false := Or.inr rfl
  have l4 : ∀ x : Ieee, ¬ x < nan := fun x h => by rcases x with _ | _ | _ <;> exact h
  have l5 : ∀ x : Ieee, ¬ nan < x := fun x h => by rcases x with _ | _ | _ <;> exact h
  have fn : fabs (nan : Ieee) = nan := if_neg (l5 _)
  have pm : ∀ x : Ieee, pyMin nan x = nan := fun x => if_neg (l4 x)
  have pm' : ∀ x : Ieee, pyMin x nan = x := fun x => if_neg (l5 x)
  have pi : ∀ x, pyMin (fin x) (inf false) = (fin x : Ieee) := fun x => if_neg (fun h => by cases h)
  obtain ⟨s, hs⟩ : ∃ s : Seg Ieee, s = ⟨⟨fin 0, fin 0, true⟩, ⟨inf false, inf false, true⟩⟩ := ⟨_, rfl⟩
  obtain ⟨o, ho⟩ : ∃ o : Seg Ieee, o = ⟨⟨fin 1, fin 1, true⟩, ⟨fin 1, fin 1, true⟩⟩ := ⟨_, rfl⟩
  have x1 : Tri.dsa s.origin s.terminal o.origin = nan := by
    rw [hs, ho]; simp only [Tri.dsa, e1, e2, e4, m2, m3, a1]
  have x1' : o.terminal = o.origin := by rw [ho]
  have hex : s.existIntersection o = false := by
    unfold Seg.existIntersection
    simp only [x1', x1, m7, ieee_num0, l5, false_and, if_false, b1, Bool.false_and]
    have h1 : s.origin.eq s.terminal = false := by rw [hs]; simp only [Vec.eq, b3, Bool.false_and]
    have h2 : o.origin.eq o.origin = true := by rw [ho]; simp only [Vec.eq, b4, Bool.and_self]
    rw [h1, h2]; rfl
  have hs1 : s.distPoint o.origin = nan := by
    unfold Seg.distPoint
    have hl : s.length = inf false := by
      rw [hs]; simp only [Seg.length, Vec.dist, Vec.dist2, sq, e5, m5, a3, sq1]
    have hp : (s.terminal.sub s.origin).innerProduct (o.origin.sub s.origin) = inf false := by
      rw [hs, ho]; simp only [Vec.innerProduct, Vec.sub, Vec.ofXY, e2, e4, m3, a3]
    simp only [hl, hp, ieee_num0, b2, x1, m6, l2, l3, and_self, if_true, v1, fn, Bool.false_eq_true, if_false]
  have ol : o.length = fin 0 := by
    rw [ho]; simp only [Seg.length, Vec.dist, Vec.dist2, sq, e3, m4, a4, sq2]
  have ho1 : o.distPoint s.origin = fin (rne √2) := by
    unfold Seg.distPoint
    simp only [ol, ieee_num0, b4, if_true]
    rw [hs, ho]; simp only [Vec.dist, Vec.dist2, sq, e2, m1, a5, sq3]
  have ho2 : o.distPoint s.terminal = inf false := by
    unfold Seg.distPoint
    simp only [ol, ieee_num0, b4, if_true]
    rw [hs, ho]; simp only [Vec.dist, Vec.dist2, sq, e5, m5, a3, sq1]
  refine ⟨s, o, ?_, ?_⟩
  · unfold Seg.distSeg
    rw [hex, hs1, pm, pm, pm]; rfl
  · unfold Seg.distSeg
    rw [(C176_segment o s true).1, hex, x1', hs1, ho1, ho2, pi, pm', pm']; rfl

/-! ## Examples -/

/-- Non-vacuity of C176. -/
example : (Seg.ofPoints (Vec.ofXY (0 : ℝ) 0) (Vec.ofXY 2 2)).swap.onSegment (Vec.ofXY 1 1) = true := by
  rw [(C176_reverse _ (Seg.ofPoints Vec.zero Vec.zero) ⟨0, 0, 0⟩ _).2.2.2.1]
  norm_num [Seg.onSegment, Tri.dsa, Seg.ofPoints, Vec.ofVec, Vec.ofXY, Seg.checkIntersectsOnLine]

example : (⟨1, 2, -3⟩ : Line ℝ).intersection ⟨1, -1, 0⟩ = Vec.ofXY 1 1 ∧ (⟨1, -1, 0⟩ : Line ℝ).intersection ⟨1, 2, -3⟩ = Vec.ofXY 1 1 := by
  have h : (⟨1, 2, -3⟩ : Line ℝ).intersection ⟨1, -1, 0⟩ = Vec.ofXY 1 1 := by
    unfold Line.intersection
    norm_num [fabs_real, EPSILON]
  exact ⟨h, (C176_line _ _).1.symm.trans h⟩

example : CommNum ℝ ∧ CommNum (FP double) ∧ CommNum Ieee := ⟨inferInstance, inferInstance, inferInstance⟩

end PyrusGeom
