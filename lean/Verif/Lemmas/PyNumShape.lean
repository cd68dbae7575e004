import Verif.Lemmas.PyNumVec

/-! # Integers in place of floats: segments, triangles, rays, circles, rectangles, matrices, sectors -/

namespace PyrusGeom

variable {lit : Bool} {k l j i g : ℕ} [m : PyMath (FP double)]

theorem sim_Tri_dsa {a0 : Vec (PyNum lit)} {x0 : Vec (FP double)} (h0 : sim k a0 x0) {a1 : Vec (PyNum lit)} {x1 : Vec (FP double)} (h1 : sim l a1 x1) {a2 : Vec (PyNum lit)} {x2 : Vec (FP double)} (h2 : sim j a2 x2) (hk : 2 * (max k (max l j)) + 3 ≤ 53) : sim (2 * (max k (max l j)) + 3) (Tri.dsa a0 a1 a2) (Tri.dsa x0 x1 x2) := by
  sim_def Tri.dsa
theorem sim_Tri_signedArea {a0 : Vec (PyNum lit)} {x0 : Vec (FP double)} (h0 : sim k a0 x0) {a1 : Vec (PyNum lit)} {x1 : Vec (FP double)} (h1 : sim l a1 x1) {a2 : Vec (PyNum lit)} {x2 : Vec (FP double)} (h2 : sim j a2 x2) (hk : 2 * (max k (max l j)) + 3 ≤ 53) : sim (2 * (max k (max l j)) + 3) (Tri.signedArea a0 a1 a2) (Tri.signedArea x0 x1 x2) := by
  sim_def Tri.signedArea
theorem sim_Tri_ccw {a0 : Vec (PyNum lit)} {x0 : Vec (FP double)} (h0 : sim k a0 x0) {a1 : Vec (PyNum lit)} {x1 : Vec (FP double)} (h1 : sim l a1 x1) {a2 : Vec (PyNum lit)} {x2 : Vec (FP double)} (h2 : sim j a2 x2) (hk : 2 * (max k (max l j)) + 3 ≤ 53) : sim (0) (Tri.ccw a0 a1 a2) (Tri.ccw x0 x1 x2) := by
  sim_def Tri.ccw

theorem sim_Seg_ofPoints {a0 : Vec (PyNum lit)} {x0 : Vec (FP double)} (h0 : sim k a0 x0) {a1 : Vec (PyNum lit)} {x1 : Vec (FP double)} (h1 : sim l a1 x1) : sim ((max k l)) (Seg.ofPoints a0 a1) (Seg.ofPoints x0 x1) := by
  sim_def Seg.ofPoints
theorem sim_Seg_ofPolar {a0 : Vec (PyNum lit)} {x0 : Vec (FP double)} (h0 : sim k a0 x0) {a1 : PyNum lit} {x1 : FP double} (h1 : sim l a1 x1) {a2 : AngleDeg (PyNum lit)} {x2 : AngleDeg (FP double)} (h2 : sim j a2 x2) (hk : (max k (max l j)) + 1 ≤ 53) : sim ((max k (max l j)) + 1) (Seg.ofPolar a0 a1 a2) (Seg.ofPolar x0 x1 x2) := by
  sim_def Seg.ofPolar
theorem sim_Seg_ofXYXY {a0 : PyNum lit} {x0 : FP double} (h0 : sim k a0 x0) {a1 : PyNum lit} {x1 : FP double} (h1 : sim l a1 x1) {a2 : PyNum lit} {x2 : FP double} (h2 : sim j a2 x2) {a3 : PyNum lit} {x3 : FP double} (h3 : sim i a3 x3) : sim ((max k (max l (max j i)))) (Seg.ofXYXY a0 a1 a2 a3) (Seg.ofXYXY x0 x1 x2 x3) := by
  sim_def Seg.ofXYXY
theorem sim_Seg_isValid {a0 : Seg (PyNum lit)} {x0 : Seg (FP double)} (h0 : sim k a0 x0) (hk : k + 1 ≤ 53) : sim (0) (Seg.isValid a0) (Seg.isValid x0) := by
  sim_def Seg.isValid
theorem sim_Seg_line {a0 : Seg (PyNum lit)} {x0 : Seg (FP double)} (h0 : sim k a0 x0) (hk : 2 * k + 2 ≤ 53) : sim (2 * k + 2) (Seg.line a0) (Seg.line x0) := by
  sim_def Seg.line
theorem sim_Seg_length {a0 : Seg (PyNum lit)} {x0 : Seg (FP double)} (h0 : sim k a0 x0) (hk : 2 * k + 3 ≤ 53) : sim (0) (Seg.length a0) (Seg.length x0) := by
  sim_def Seg.length
theorem sim_Seg_direction {a0 : Seg (PyNum lit)} {x0 : Seg (FP double)} (h0 : sim k a0 x0) (hk : k + 1 ≤ 53) : sim (12) (Seg.direction a0) (Seg.direction x0) := by
  sim_def Seg.direction
theorem sim_Seg_swap {a0 : Seg (PyNum lit)} {x0 : Seg (FP double)} (h0 : sim k a0 x0) : sim (k) (Seg.swap a0) (Seg.swap x0) := by
  sim_def Seg.swap
theorem sim_Seg_reversedSegment {a0 : Seg (PyNum lit)} {x0 : Seg (FP double)} (h0 : sim k a0 x0) : sim (k) (Seg.reversedSegment a0) (Seg.reversedSegment x0) := by
  sim_def Seg.reversedSegment
theorem sim_Seg_perpendicularBisector {a0 : Seg (PyNum lit)} {x0 : Seg (FP double)} (h0 : sim k a0 x0) (hk : 2 * k + 4 ≤ 53) : sim (2 * k + 4) (Seg.perpendicularBisector a0) (Seg.perpendicularBisector x0) := by
  sim_def Seg.perpendicularBisector
theorem sim_Seg_contains {a0 : Seg (PyNum lit)} {x0 : Seg (FP double)} (h0 : sim k a0 x0) {a1 : Vec (PyNum lit)} {x1 : Vec (FP double)} (h1 : sim l a1 x1) (hk : 2 * (max k l) + 2 ≤ 53) : sim (0) (Seg.contains a0 a1) (Seg.contains x0 x1) := by
  sim_def Seg.contains
theorem sim_Seg_eq {a0 : Seg (PyNum lit)} {x0 : Seg (FP double)} (h0 : sim k a0 x0) {a1 : Seg (PyNum lit)} {x1 : Seg (FP double)} (h1 : sim l a1 x1) : sim (0) (Seg.eq a0 a1) (Seg.eq x0 x1) := by
  sim_def Seg.eq
theorem sim_Seg_equalsWeakly {a0 : Seg (PyNum lit)} {x0 : Seg (FP double)} (h0 : sim k a0 x0) {a1 : Seg (PyNum lit)} {x1 : Seg (FP double)} (h1 : sim l a1 x1) (hk : (max k l) + 1 ≤ 53) : sim (0) (Seg.equalsWeakly a0 a1) (Seg.equalsWeakly x0 x1) := by
  sim_def Seg.equalsWeakly
theorem sim_Seg_projection {a0 : Seg (PyNum lit)} {x0 : Seg (FP double)} (h0 : sim k a0 x0) {a1 : Vec (PyNum lit)} {x1 : Vec (FP double)} (h1 : sim l a1 x1) (hk : 2 * (max k l) + 4 ≤ 53) : sim ((max k l) + 4) (Seg.projection a0 a1) (Seg.projection x0 x1) := by
  sim_def Seg.projection
theorem sim_Seg_checkIntersectsOnLine {a0 : Seg (PyNum lit)} {x0 : Seg (FP double)} (h0 : sim k a0 x0) {a1 : Vec (PyNum lit)} {x1 : Vec (FP double)} (h1 : sim l a1 x1) : sim (0) (Seg.checkIntersectsOnLine a0 a1) (Seg.checkIntersectsOnLine x0 x1) := by
  sim_def Seg.checkIntersectsOnLine
theorem sim_Seg_existIntersection {a0 : Seg (PyNum lit)} {x0 : Seg (FP double)} (h0 : sim k a0 x0) {a1 : Seg (PyNum lit)} {x1 : Seg (FP double)} (h1 : sim l a1 x1) (hk : 4 * (max k l) + 6 ≤ 53) : sim (0) (Seg.existIntersection a0 a1) (Seg.existIntersection x0 x1) := by
  sim_def Seg.existIntersection
theorem sim_Seg_existIntersectionLine {a0 : Seg (PyNum lit)} {x0 : Seg (FP double)} (h0 : sim k a0 x0) {a1 : Line (PyNum lit)} {x1 : Line (FP double)} (h1 : sim l a1 x1) (hk : 2 * k + 2 * l + 4 ≤ 53) : sim (0) (Seg.existIntersectionLine a0 a1) (Seg.existIntersectionLine x0 x1) := by
  sim_def Seg.existIntersectionLine
theorem sim_Seg_existIntersectionExceptEndpoint {a0 : Seg (PyNum lit)} {x0 : Seg (FP double)} (h0 : sim k a0 x0) {a1 : Seg (PyNum lit)} {x1 : Seg (FP double)} (h1 : sim l a1 x1) (hk : 4 * (max k l) + 6 ≤ 53) : sim (0) (Seg.existIntersectionExceptEndpoint a0 a1) (Seg.existIntersectionExceptEndpoint x0 x1) := by
  sim_def Seg.existIntersectionExceptEndpoint
theorem sim_Seg_intersectionLine {a0 : Seg (PyNum lit)} {x0 : Seg (FP double)} (h0 : sim k a0 x0) {a1 : Line (PyNum lit)} {x1 : Line (FP double)} (h1 : sim l a1 x1) (hk : 2 * k + l + 3 ≤ 53) : sim (0) (Seg.intersectionLine a0 a1) (Seg.intersectionLine x0 x1) := by
  sim_def Seg.intersectionLine
theorem sim_Seg_intersectionSeg {a0 : Seg (PyNum lit)} {x0 : Seg (FP double)} (h0 : sim k a0 x0) {a1 : Seg (PyNum lit)} {x1 : Seg (FP double)} (h1 : sim l a1 x1) (b2 : Bool) (hk : 4 * (max k l) + 6 ≤ 53) : sim (0) (Seg.intersectionSeg a0 a1 b2) (Seg.intersectionSeg x0 x1 b2) := by
  sim_def Seg.intersectionSeg
theorem sim_Seg_nearestPoint {a0 : Seg (PyNum lit)} {x0 : Seg (FP double)} (h0 : sim k a0 x0) {a1 : Vec (PyNum lit)} {x1 : Vec (FP double)} (h1 : sim l a1 x1) (hk : 3 * (max k l) + 4 ≤ 53) : sim ((max k l) + 1) (Seg.nearestPoint a0 a1) (Seg.nearestPoint x0 x1) := by
  sim_def Seg.nearestPoint
theorem sim_Seg_distPoint {a0 : Seg (PyNum lit)} {x0 : Seg (FP double)} (h0 : sim k a0 x0) {a1 : Vec (PyNum lit)} {x1 : Vec (FP double)} (h1 : sim l a1 x1) (hk : 2 * (max k l) + 3 ≤ 53) : sim (0) (Seg.distPoint a0 a1) (Seg.distPoint x0 x1) := by
  sim_def Seg.distPoint
theorem sim_Seg_distSeg {a0 : Seg (PyNum lit)} {x0 : Seg (FP double)} (h0 : sim k a0 x0) {a1 : Seg (PyNum lit)} {x1 : Seg (FP double)} (h1 : sim l a1 x1) (hk : 4 * (max k l) + 6 ≤ 53) : sim (0) (Seg.distSeg a0 a1) (Seg.distSeg x0 x1) := by
  sim_def Seg.distSeg
theorem sim_Seg_farthestDist {a0 : Seg (PyNum lit)} {x0 : Seg (FP double)} (h0 : sim k a0 x0) {a1 : Vec (PyNum lit)} {x1 : Vec (FP double)} (h1 : sim l a1 x1) (hk : 2 * (max k l) + 3 ≤ 53) : sim (0) (Seg.farthestDist a0 a1) (Seg.farthestDist x0 x1) := by
  sim_def Seg.farthestDist
theorem sim_Seg_onSegment {a0 : Seg (PyNum lit)} {x0 : Seg (FP double)} (h0 : sim k a0 x0) {a1 : Vec (PyNum lit)} {x1 : Vec (FP double)} (h1 : sim l a1 x1) (hk : 2 * (max k l) + 3 ≤ 53) : sim (0) (Seg.onSegment a0 a1) (Seg.onSegment x0 x1) := by
  sim_def Seg.onSegment
theorem sim_Seg_onSegmentWeakly {a0 : Seg (PyNum lit)} {x0 : Seg (FP double)} (h0 : sim k a0 x0) {a1 : Vec (PyNum lit)} {x1 : Vec (FP double)} (h1 : sim l a1 x1) (hk : 2 * (max k l) + 5 ≤ 53) : sim (0) (Seg.onSegmentWeakly a0 a1) (Seg.onSegmentWeakly x0 x1) := by
  sim_def Seg.onSegmentWeakly

theorem sim_Ray_ofAngle {a0 : Vec (PyNum lit)} {x0 : Vec (FP double)} (h0 : sim k a0 x0) {a1 : AngleDeg (PyNum lit)} {x1 : AngleDeg (FP double)} (h1 : sim l a1 x1) (hk : l ≤ 53) : sim (max k 12) (Ray.ofAngle a0 a1) (Ray.ofAngle x0 x1) := by
  sim_def Ray.ofAngle
theorem sim_Ray_ofPoint {a0 : Vec (PyNum lit)} {x0 : Vec (FP double)} (h0 : sim k a0 x0) {a1 : Vec (PyNum lit)} {x1 : Vec (FP double)} (h1 : sim l a1 x1) (hk : (max k l) + 1 ≤ 53) : sim (max k 12) (Ray.ofPoint a0 a1) (Ray.ofPoint x0 x1) := by
  sim_def Ray.ofPoint
theorem sim_Ray_line {a0 : Ray (PyNum lit)} {x0 : Ray (FP double)} (h0 : sim k a0 x0) (hk : k + 1 ≤ 53) : sim (k + 1) (Ray.line a0) (Ray.line x0) := by
  sim_def Ray.line
theorem sim_Ray_inRightDir {a0 : Ray (PyNum lit)} {x0 : Ray (FP double)} (h0 : sim k a0 x0) {a1 : Vec (PyNum lit)} {x1 : Vec (FP double)} (h1 : sim l a1 x1) {a2 : PyNum lit} {x2 : FP double} (h2 : sim j a2 x2) (hk : (max k (max l j)) + 14 ≤ 53) : sim (0) (Ray.inRightDir a0 a1 a2) (Ray.inRightDir x0 x1 x2) := by
  sim_def Ray.inRightDir
theorem sim_Ray_intersectionLine {a0 : Ray (PyNum lit)} {x0 : Ray (FP double)} (h0 : sim k a0 x0) {a1 : Line (PyNum lit)} {x1 : Line (FP double)} (h1 : sim l a1 x1) (hk : k + l + 14 ≤ 53) : sim (0) (Ray.intersectionLine a0 a1) (Ray.intersectionLine x0 x1) := by
  sim_def Ray.intersectionLine
theorem sim_Ray_intersectionRay {a0 : Ray (PyNum lit)} {x0 : Ray (FP double)} (h0 : sim k a0 x0) {a1 : Ray (PyNum lit)} {x1 : Ray (FP double)} (h1 : sim l a1 x1) (hk : k + l + 14 ≤ 53) : sim (0) (Ray.intersectionRay a0 a1) (Ray.intersectionRay x0 x1) := by
  sim_def Ray.intersectionRay
theorem sim_Ray_eq {a0 : Ray (PyNum lit)} {x0 : Ray (FP double)} (h0 : sim k a0 x0) {a1 : Ray (PyNum lit)} {x1 : Ray (FP double)} (h1 : sim l a1 x1) (hk : (max k l) + 13 ≤ 53) : sim (0) (Ray.eq a0 a1) (Ray.eq x0 x1) := by
  sim_def Ray.eq

instance : NumSim (Tri.InterRes (PyNum lit)) (Tri.InterRes (FP double)) :=
  ⟨fun k a b => a.n = b.n ∧ sim k a.s0 b.s0 ∧ sim k a.s1 b.s1, fun h hk => ⟨h.1, NumSim.mono h.2.1 hk, NumSim.mono h.2.2 hk⟩⟩
theorem sim_Tri_InterRes_mk {n n' : ℕ} {a b : Vec (PyNum lit)} {x y : Vec (FP double)} (hn : sim k n n') (h : sim l a x) (h' : sim j b y) :
    sim (max l j) (⟨n, a, b⟩ : Tri.InterRes (PyNum lit)) (⟨n', x, y⟩ : Tri.InterRes (FP double)) :=
  ⟨hn, NumSim.mono h (le_max_left _ _), NumSim.mono h' (le_max_right _ _)⟩
theorem sim_Tri_InterRes_n {a : Tri.InterRes (PyNum lit)} {x : Tri.InterRes (FP double)} (h : sim k a x) : sim 0 a.n x.n := h.1
theorem sim_Tri_InterRes_s0 {a : Tri.InterRes (PyNum lit)} {x : Tri.InterRes (FP double)} (h : sim k a x) : sim k a.s0 x.s0 := h.2.1
theorem sim_Tri_InterRes_s1 {a : Tri.InterRes (PyNum lit)} {x : Tri.InterRes (FP double)} (h : sim k a x) : sim k a.s1 x.s1 := h.2.2
theorem sim_Tri_setSol {s : Vec (PyNum lit) × Vec (PyNum lit)} {t : Vec (FP double) × Vec (FP double)} {n n' : ℕ} {v : Vec (PyNum lit)}
    {w : Vec (FP double)} (h0 : sim k s t) (h1 : sim l n n') (h2 : sim j v w) : sim (max k j) (Tri.setSol s n v) (Tri.setSol t n' w) := by
  rw [show n = n' from h1]
  unfold Tri.setSol
  split <;> sim_tac

theorem sim_Tri_ofPoints {a0 : Vec (PyNum lit)} {x0 : Vec (FP double)} (h0 : sim k a0 x0) {a1 : Vec (PyNum lit)} {x1 : Vec (FP double)} (h1 : sim l a1 x1) {a2 : Vec (PyNum lit)} {x2 : Vec (FP double)} (h2 : sim j a2 x2) : sim ((max k (max l j))) (Tri.ofPoints a0 a1 a2) (Tri.ofPoints x0 x1 x2) := by
  sim_def Tri.ofPoints
theorem sim_Tri_ofSeg {a0 : Seg (PyNum lit)} {x0 : Seg (FP double)} (h0 : sim k a0 x0) {a1 : Vec (PyNum lit)} {x1 : Vec (FP double)} (h1 : sim l a1 x1) : sim ((max k l)) (Tri.ofSeg a0 a1) (Tri.ofSeg x0 x1) := by
  sim_def Tri.ofSeg
theorem sim_Tri_isValid {a0 : Tri (PyNum lit)} {x0 : Tri (FP double)} (h0 : sim k a0 x0) : sim (0) (Tri.isValid a0) (Tri.isValid x0) := by
  sim_def Tri.isValid
theorem sim_Tri_area {a0 : Tri (PyNum lit)} {x0 : Tri (FP double)} (h0 : sim k a0 x0) (hk : 2 * k + 3 ≤ 53) : sim (2 * k + 3) (Tri.area a0) (Tri.area x0) := by
  sim_def Tri.area
theorem sim_Tri_triContains {a0 : Vec (PyNum lit)} {x0 : Vec (FP double)} (h0 : sim k a0 x0) {a1 : Vec (PyNum lit)} {x1 : Vec (FP double)} (h1 : sim l a1 x1) {a2 : Vec (PyNum lit)} {x2 : Vec (FP double)} (h2 : sim j a2 x2) {a3 : Vec (PyNum lit)} {x3 : Vec (FP double)} (h3 : sim i a3 x3) (hk : 2 * (max k (max l (max j i))) + 3 ≤ 53) : sim (0) (Tri.triContains a0 a1 a2 a3) (Tri.triContains x0 x1 x2 x3) := by
  sim_def Tri.triContains
theorem sim_Tri_contains {a0 : Tri (PyNum lit)} {x0 : Tri (FP double)} (h0 : sim k a0 x0) {a1 : Vec (PyNum lit)} {x1 : Vec (FP double)} (h1 : sim l a1 x1) (hk : 2 * (max k l) + 3 ≤ 53) : sim (0) (Tri.contains a0 a1) (Tri.contains x0 x1) := by
  sim_def Tri.contains
theorem sim_Tri_triCentroid {a0 : Vec (PyNum lit)} {x0 : Vec (FP double)} (h0 : sim k a0 x0) {a1 : Vec (PyNum lit)} {x1 : Vec (FP double)} (h1 : sim l a1 x1) {a2 : Vec (PyNum lit)} {x2 : Vec (FP double)} (h2 : sim j a2 x2) : sim (0) (Tri.triCentroid a0 a1 a2) (Tri.triCentroid x0 x1 x2) := by
  exact ExceptRel.error _
theorem sim_Tri_triIncenter {a0 : Vec (PyNum lit)} {x0 : Vec (FP double)} (h0 : sim k a0 x0) {a1 : Vec (PyNum lit)} {x1 : Vec (FP double)} (h1 : sim l a1 x1) {a2 : Vec (PyNum lit)} {x2 : Vec (FP double)} (h2 : sim j a2 x2) (hk : 2 * (max k (max l j)) + 14 ≤ 53) : sim (0) (Tri.triIncenter a0 a1 a2) (Tri.triIncenter x0 x1 x2) := by
  sim_def Tri.triIncenter
theorem sim_Tri_triCircumcenter {a0 : Vec (PyNum lit)} {x0 : Vec (FP double)} (h0 : sim k a0 x0) {a1 : Vec (PyNum lit)} {x1 : Vec (FP double)} (h1 : sim l a1 x1) {a2 : Vec (PyNum lit)} {x2 : Vec (FP double)} (h2 : sim j a2 x2) (hk : 4 * (max k (max l j)) + 9 ≤ 53) : sim (0) (Tri.triCircumcenter a0 a1 a2) (Tri.triCircumcenter x0 x1 x2) := by
  sim_def Tri.triCircumcenter
theorem sim_Tri_triOrthocenter {a0 : Vec (PyNum lit)} {x0 : Vec (FP double)} (h0 : sim k a0 x0) {a1 : Vec (PyNum lit)} {x1 : Vec (FP double)} (h1 : sim l a1 x1) {a2 : Vec (PyNum lit)} {x2 : Vec (FP double)} (h2 : sim j a2 x2) (hk : 6 * (max k (max l j)) + 7 ≤ 53) : sim (0) (Tri.triOrthocenter a0 a1 a2) (Tri.triOrthocenter x0 x1 x2) := by
  sim_def Tri.triOrthocenter
theorem sim_Tri_intersectionLine {a0 : Tri (PyNum lit)} {x0 : Tri (FP double)} (h0 : sim k a0 x0) {a1 : Line (PyNum lit)} {x1 : Line (FP double)} (h1 : sim l a1 x1) (hk : 2 * k + l + 3 ≤ 53) : sim (0) (Tri.intersectionLine a0 a1) (Tri.intersectionLine x0 x1) := by
  sim_def Tri.intersectionLine
theorem sim_Tri_intersectionRay {a0 : Tri (PyNum lit)} {x0 : Tri (FP double)} (h0 : sim k a0 x0) {a1 : Ray (PyNum lit)} {x1 : Ray (FP double)} (h1 : sim l a1 x1) (hk : 2 * k + l + 14 ≤ 53) : sim (0) (Tri.intersectionRay a0 a1) (Tri.intersectionRay x0 x1) := by
  sim_def Tri.intersectionRay

theorem sim_Circle_solPoints {mk : PyNum lit → Vec (PyNum lit)} {mk' : FP double → Vec (FP double)} {s : List (PyNum lit)} {t : List (FP double)}
    (h : sim k s t) (hm : ∀ a x, sim k a x → sim l (mk a) (mk' x)) (hk : l + 1 ≤ 53) : sim l (Circle.solPoints mk s) (Circle.solPoints mk' t) := by
  unfold Circle.solPoints
  cases h with
  | nil => exact NumSim.mono sim_nil (Nat.zero_le _)
  | cons h h' =>
    cases h' with
    | nil => exact NumSim.mono sim_nil (Nat.zero_le _)
    | cons h2 h' =>
      have h3 := hm _ _ h
      have h4 := hm _ _ h2
      dsimp only
      sim_tac
theorem sim_Circle_dropRejected {ok : Vec (PyNum lit) → Bool} {ok' : Vec (FP double) → Bool} {s : List (Vec (PyNum lit))} {t : List (Vec (FP double))}
    (h : sim k s t) (hm : ∀ a x, sim k a x → sim 0 (ok a) (ok' x)) : sim k (Circle.dropRejected ok s) (Circle.dropRejected ok' t) := by
  unfold Circle.dropRejected
  cases h with
  | nil => exact NumSim.mono sim_nil (Nat.zero_le _)
  | @cons a x s t h h' =>
    have e1 : ok a = ok' x := hm _ _ h
    cases h' with
    | nil => dsimp only; rw [e1]; split <;> sim_tac
    | @cons b y s t h2 h' =>
      have e2 : ok b = ok' y := hm _ _ h2
      have h5 : sim k s t := h'
      dsimp only
      rw [e2]
      cases ok' y <;> (simp only [Bool.not_true, Bool.not_false, if_true, if_false, Bool.false_eq_true, e1]; cases ok' x <;>
        (simp only [Bool.not_true, Bool.not_false, if_true, if_false, Bool.false_eq_true]; sim_tac))

theorem sim_quadraticF {a0 : PyNum lit} {x0 : FP double} (h0 : sim k a0 x0) {a1 : PyNum lit} {x1 : FP double} (h1 : sim l a1 x1) {a2 : PyNum lit} {x2 : FP double} (h2 : sim j a2 x2) (hk : max (2 * l) (10 + k + j) + 1 ≤ 53) : sim (0) (quadraticF a0 a1 a2) (quadraticF x0 x1 x2) := by
  sim_def quadraticF

theorem sim_Circle_ofCR {a0 : Vec (PyNum lit)} {x0 : Vec (FP double)} (h0 : sim k a0 x0) {a1 : PyNum lit} {x1 : FP double} (h1 : sim l a1 x1) : sim ((max k l)) (Circle.ofCR a0 a1) (Circle.ofCR x0 x1) := by
  sim_def Circle.ofCR
theorem sim_Circle_default  : sim (0) ((Circle.default : Circle (PyNum lit))) ((Circle.default : Circle (FP double))) := by
  sim_def Circle.default
theorem sim_Circle_area {a0 : Circle (PyNum lit)} {x0 : Circle (FP double)} (h0 : sim k a0 x0) (hk : 2 * k ≤ 53) : sim (2 * k) (Circle.area a0) (Circle.area x0) := by
  sim_def Circle.area
theorem sim_Circle_contains {a0 : Circle (PyNum lit)} {x0 : Circle (FP double)} (h0 : sim k a0 x0) {a1 : Vec (PyNum lit)} {x1 : Vec (FP double)} (h1 : sim l a1 x1) (hk : 2 * (max k l) + 3 ≤ 53) : sim (0) (Circle.contains a0 a1) (Circle.contains x0 x1) := by
  sim_def Circle.contains
theorem sim_Circle_intersectionLine {a0 : Circle (PyNum lit)} {x0 : Circle (FP double)} (h0 : sim k a0 x0) {a1 : Line (PyNum lit)} {x1 : Line (FP double)} (h1 : sim l a1 x1) (hk : max (2 * k + 13) (l + 1) ≤ 53) : sim (0) (Circle.intersectionLine a0 a1) (Circle.intersectionLine x0 x1) := by
  sim_def Circle.intersectionLine
theorem sim_Circle_intersectionRay {a0 : Circle (PyNum lit)} {x0 : Circle (FP double)} (h0 : sim k a0 x0) {a1 : Ray (PyNum lit)} {x1 : Ray (FP double)} (h1 : sim l a1 x1) (hk : max (2 * k + 13) (l + 14) ≤ 53) : sim (0) (Circle.intersectionRay a0 a1) (Circle.intersectionRay x0 x1) := by
  sim_def Circle.intersectionRay
theorem sim_Circle_intersectionSeg {a0 : Circle (PyNum lit)} {x0 : Circle (FP double)} (h0 : sim k a0 x0) {a1 : Seg (PyNum lit)} {x1 : Seg (FP double)} (h1 : sim l a1 x1) (hk : max (2 * k + 13) (2 * l + 3) ≤ 53) : sim (0) (Circle.intersectionSeg a0 a1) (Circle.intersectionSeg x0 x1) := by
  sim_def Circle.intersectionSeg
theorem sim_Circle_intersectionCircle {a0 : Circle (PyNum lit)} {x0 : Circle (FP double)} (h0 : sim k a0 x0) {a1 : Circle (PyNum lit)} {x1 : Circle (FP double)} (h1 : sim l a1 x1) (hk : 2 * (max k l) + 14 ≤ 53) : sim (0) (Circle.intersectionCircle a0 a1) (Circle.intersectionCircle x0 x1) := by
  sim_def Circle.intersectionCircle
theorem sim_Circle_circumCircle {a0 : Vec (PyNum lit)} {x0 : Vec (FP double)} (h0 : sim k a0 x0) {a1 : Vec (PyNum lit)} {x1 : Vec (FP double)} (h1 : sim l a1 x1) {a2 : Vec (PyNum lit)} {x2 : Vec (FP double)} (h2 : sim j a2 x2) (hk : 4 * (max k (max l j)) + 9 ≤ 53) : sim (0) (Circle.circumCircle a0 a1 a2) (Circle.circumCircle x0 x1 x2) := by
  sim_def Circle.circumCircle
set_option maxHeartbeats 2000000 in
theorem sim_Circle_circumCircleContains {a0 : Vec (PyNum lit)} {x0 : Vec (FP double)} (h0 : sim k a0 x0) {a1 : Vec (PyNum lit)} {x1 : Vec (FP double)} (h1 : sim l a1 x1) {a2 : Vec (PyNum lit)} {x2 : Vec (FP double)} (h2 : sim j a2 x2) {a3 : Vec (PyNum lit)} {x3 : Vec (FP double)} (h3 : sim i a3 x3) (hk : 3 * (max k (max l (max j i))) + 6 ≤ 53) : sim (0) (Circle.circumCircleContains a0 a1 a2 a3) (Circle.circumCircleContains x0 x1 x2 x3) := by
  sim_def Circle.circumCircleContains

theorem sim_Size_ofLW {a0 : PyNum lit} {x0 : FP double} (h0 : sim k a0 x0) {a1 : PyNum lit} {x1 : FP double} (h1 : sim l a1 x1) : sim ((max k l)) (Size.ofLW a0 a1) (Size.ofLW x0 x1) := by
  sim_def Size.ofLW
theorem sim_Size_setLength {a0 : Size (PyNum lit)} {x0 : Size (FP double)} (h0 : sim k a0 x0) {a1 : PyNum lit} {x1 : FP double} (h1 : sim l a1 x1) : sim ((max k l)) (Size.setLength a0 a1) (Size.setLength x0 x1) := by
  sim_def Size.setLength
theorem sim_Size_setWidth {a0 : Size (PyNum lit)} {x0 : Size (FP double)} (h0 : sim k a0 x0) {a1 : PyNum lit} {x1 : FP double} (h1 : sim l a1 x1) : sim ((max k l)) (Size.setWidth a0 a1) (Size.setWidth x0 x1) := by
  sim_def Size.setWidth
theorem sim_Size_diagonal {a0 : Size (PyNum lit)} {x0 : Size (FP double)} (h0 : sim k a0 x0) (hk : 2 * k + 1 ≤ 53) : sim (0) (Size.diagonal a0) (Size.diagonal x0) := by
  sim_def Size.diagonal
theorem sim_Size_isValid {a0 : Size (PyNum lit)} {x0 : Size (FP double)} (h0 : sim k a0 x0) : sim (0) (Size.isValid a0) (Size.isValid x0) := by
  sim_def Size.isValid
theorem sim_Size_eq {a0 : Size (PyNum lit)} {x0 : Size (FP double)} (h0 : sim k a0 x0) {a1 : Size (PyNum lit)} {x1 : Size (FP double)} (h1 : sim l a1 x1) (hk : (max k l) + 1 ≤ 53) : sim (0) (Size.eq a0 a1) (Size.eq x0 x1) := by
  sim_def Size.eq

theorem sim_Rect_dropNear {s : List (Vec (PyNum lit))} {t : List (Vec (FP double))} (h : sim k s t) (hk : k + 1 ≤ 53) :
    sim k (Rect.dropNear s) (Rect.dropNear t) := by
  cases h with
  | nil => exact NumSim.mono sim_nil (Nat.zero_le _)
  | @cons a x s t h h' =>
    cases h' with
    | nil => exact List.Forall₂.cons h .nil
    | @cons b y s t h2 h' =>
      have h1 : sim k a x := h
      have h3 : sim k b y := h2
      cases h' with
      | nil => simp only [Rect.dropNear]; sim_tac
      | @cons c z s t h4 h' => exact List.Forall₂.cons h (.cons h2 (.cons h4 h'))
theorem sim_List_length {α β : Type} [NumSim α β] {s : List α} {t : List β} (h : sim k s t) : sim 0 s.length t.length := List.Forall₂.length_eq h
theorem sim_Rect_interStep {s : List (Vec (PyNum lit))} {t : List (Vec (FP double))} {v : Vec (PyNum lit)} {w : Vec (FP double)} {b c : Bool}
    (h : sim k s t) (h' : sim l v w) (hb : sim j b c) : sim (max k l) (Rect.interStep s v b) (Rect.interStep t w c) := by
  sim_def Rect.interStep

theorem sim_Rect_left {a0 : Rect (PyNum lit)} {x0 : Rect (FP double)} (h0 : sim k a0 x0) : sim (k) (Rect.left a0) (Rect.left x0) := by
  sim_def Rect.left
theorem sim_Rect_top {a0 : Rect (PyNum lit)} {x0 : Rect (FP double)} (h0 : sim k a0 x0) : sim (k) (Rect.top a0) (Rect.top x0) := by
  sim_def Rect.top
theorem sim_Rect_right {a0 : Rect (PyNum lit)} {x0 : Rect (FP double)} (h0 : sim k a0 x0) (hk : k + 1 ≤ 53) : sim (k + 1) (Rect.right a0) (Rect.right x0) := by
  sim_def Rect.right
theorem sim_Rect_bottom {a0 : Rect (PyNum lit)} {x0 : Rect (FP double)} (h0 : sim k a0 x0) (hk : k + 1 ≤ 53) : sim (k + 1) (Rect.bottom a0) (Rect.bottom x0) := by
  sim_def Rect.bottom
theorem sim_Rect_ofLTLW {a0 : PyNum lit} {x0 : FP double} (h0 : sim k a0 x0) {a1 : PyNum lit} {x1 : FP double} (h1 : sim l a1 x1) {a2 : PyNum lit} {x2 : FP double} (h2 : sim j a2 x2) {a3 : PyNum lit} {x3 : FP double} (h3 : sim i a3 x3) : sim ((max k (max l (max j i)))) (Rect.ofLTLW a0 a1 a2 a3) (Rect.ofLTLW x0 x1 x2 x3) := by
  sim_def Rect.ofLTLW
theorem sim_Rect_ofPointLW {a0 : Vec (PyNum lit)} {x0 : Vec (FP double)} (h0 : sim k a0 x0) {a1 : PyNum lit} {x1 : FP double} (h1 : sim l a1 x1) {a2 : PyNum lit} {x2 : FP double} (h2 : sim j a2 x2) : sim ((max k (max l j))) (Rect.ofPointLW a0 a1 a2) (Rect.ofPointLW x0 x1 x2) := by
  sim_def Rect.ofPointLW
theorem sim_Rect_ofCorners {a0 : Vec (PyNum lit)} {x0 : Vec (FP double)} (h0 : sim k a0 x0) {a1 : Vec (PyNum lit)} {x1 : Vec (FP double)} (h1 : sim l a1 x1) (hk : (max k l) + 1 ≤ 53) : sim ((max k l)) (Rect.ofCorners a0 a1) (Rect.ofCorners x0 x1) := by
  sim_def Rect.ofCorners
theorem sim_Rect_ofPointSize {a0 : Vec (PyNum lit)} {x0 : Vec (FP double)} (h0 : sim k a0 x0) {a1 : Size (PyNum lit)} {x1 : Size (FP double)} (h1 : sim l a1 x1) : sim ((max k l)) (Rect.ofPointSize a0 a1) (Rect.ofPointSize x0 x1) := by
  sim_def Rect.ofPointSize
theorem sim_Rect_ofRect {a0 : Rect (PyNum lit)} {x0 : Rect (FP double)} (h0 : sim k a0 x0) : sim (k) (Rect.ofRect a0) (Rect.ofRect x0) := by
  sim_def Rect.ofRect
theorem sim_Rect_assign4 {a0 : Rect (PyNum lit)} {x0 : Rect (FP double)} (h0 : sim k a0 x0) {a1 : PyNum lit} {x1 : FP double} (h1 : sim l a1 x1) {a2 : PyNum lit} {x2 : FP double} (h2 : sim j a2 x2) {a3 : PyNum lit} {x3 : FP double} (h3 : sim i a3 x3) {a4 : PyNum lit} {x4 : FP double} (h4 : sim g a4 x4) : sim (max l (max j g)) (Rect.assign4 a0 a1 a2 a3 a4) (Rect.assign4 x0 x1 x2 x3 x4) := by
  sim_def Rect.assign4
theorem sim_Rect_assign3 {a0 : Rect (PyNum lit)} {x0 : Rect (FP double)} (h0 : sim k a0 x0) {a1 : Vec (PyNum lit)} {x1 : Vec (FP double)} (h1 : sim l a1 x1) {a2 : PyNum lit} {x2 : FP double} (h2 : sim j a2 x2) {a3 : PyNum lit} {x3 : FP double} (h3 : sim i a3 x3) : sim (max l (max j i)) (Rect.assign3 a0 a1 a2 a3) (Rect.assign3 x0 x1 x2 x3) := by
  sim_def Rect.assign3
theorem sim_Rect_moveCenter {a0 : Rect (PyNum lit)} {x0 : Rect (FP double)} (h0 : sim k a0 x0) {a1 : Vec (PyNum lit)} {x1 : Vec (FP double)} (h1 : sim l a1 x1) (hk : (max k l) + 1 ≤ 53) : sim ((max k l) + 1) (Rect.moveCenter a0 a1) (Rect.moveCenter x0 x1) := by
  sim_def Rect.moveCenter
theorem sim_Rect_moveTopLeft {a0 : Rect (PyNum lit)} {x0 : Rect (FP double)} (h0 : sim k a0 x0) {a1 : Vec (PyNum lit)} {x1 : Vec (FP double)} (h1 : sim l a1 x1) : sim ((max k l)) (Rect.moveTopLeft a0 a1) (Rect.moveTopLeft x0 x1) := by
  sim_def Rect.moveTopLeft
theorem sim_Rect_moveBottomRight {a0 : Rect (PyNum lit)} {x0 : Rect (FP double)} (h0 : sim k a0 x0) {a1 : Vec (PyNum lit)} {x1 : Vec (FP double)} (h1 : sim l a1 x1) (hk : (max k l) + 1 ≤ 53) : sim ((max k l) + 1) (Rect.moveBottomRight a0 a1) (Rect.moveBottomRight x0 x1) := by
  sim_def Rect.moveBottomRight
theorem sim_Rect_moveLeft {a0 : Rect (PyNum lit)} {x0 : Rect (FP double)} (h0 : sim k a0 x0) {a1 : PyNum lit} {x1 : FP double} (h1 : sim l a1 x1) : sim ((max k l)) (Rect.moveLeft a0 a1) (Rect.moveLeft x0 x1) := by
  sim_def Rect.moveLeft
theorem sim_Rect_moveRight {a0 : Rect (PyNum lit)} {x0 : Rect (FP double)} (h0 : sim k a0 x0) {a1 : PyNum lit} {x1 : FP double} (h1 : sim l a1 x1) (hk : (max k l) + 1 ≤ 53) : sim ((max k l) + 1) (Rect.moveRight a0 a1) (Rect.moveRight x0 x1) := by
  sim_def Rect.moveRight
theorem sim_Rect_moveTop {a0 : Rect (PyNum lit)} {x0 : Rect (FP double)} (h0 : sim k a0 x0) {a1 : PyNum lit} {x1 : FP double} (h1 : sim l a1 x1) : sim ((max k l)) (Rect.moveTop a0 a1) (Rect.moveTop x0 x1) := by
  sim_def Rect.moveTop
theorem sim_Rect_moveBottom {a0 : Rect (PyNum lit)} {x0 : Rect (FP double)} (h0 : sim k a0 x0) {a1 : PyNum lit} {x1 : FP double} (h1 : sim l a1 x1) (hk : (max k l) + 1 ≤ 53) : sim ((max k l) + 1) (Rect.moveBottom a0 a1) (Rect.moveBottom x0 x1) := by
  sim_def Rect.moveBottom
theorem sim_Rect_setTopLeft {a0 : Rect (PyNum lit)} {x0 : Rect (FP double)} (h0 : sim k a0 x0) {a1 : PyNum lit} {x1 : FP double} (h1 : sim l a1 x1) {a2 : PyNum lit} {x2 : FP double} (h2 : sim j a2 x2) (hk : (max k (max l j)) + 2 ≤ 53) : sim ((max k (max l j)) + 2) (Rect.setTopLeft a0 a1 a2) (Rect.setTopLeft x0 x1 x2) := by
  sim_def Rect.setTopLeft
theorem sim_Rect_setBottomRight {a0 : Rect (PyNum lit)} {x0 : Rect (FP double)} (h0 : sim k a0 x0) {a1 : PyNum lit} {x1 : FP double} (h1 : sim l a1 x1) {a2 : PyNum lit} {x2 : FP double} (h2 : sim j a2 x2) (hk : (max k (max l j)) + 1 ≤ 53) : sim ((max k (max l j)) + 1) (Rect.setBottomRight a0 a1 a2) (Rect.setBottomRight x0 x1 x2) := by
  sim_def Rect.setBottomRight
theorem sim_Rect_setLeft {a0 : Rect (PyNum lit)} {x0 : Rect (FP double)} (h0 : sim k a0 x0) {a1 : PyNum lit} {x1 : FP double} (h1 : sim l a1 x1) (hk : (max k l) + 2 ≤ 53) : sim ((max k l) + 2) (Rect.setLeft a0 a1) (Rect.setLeft x0 x1) := by
  sim_def Rect.setLeft
theorem sim_Rect_setRight {a0 : Rect (PyNum lit)} {x0 : Rect (FP double)} (h0 : sim k a0 x0) {a1 : PyNum lit} {x1 : FP double} (h1 : sim l a1 x1) (hk : (max k l) + 1 ≤ 53) : sim ((max k l) + 1) (Rect.setRight a0 a1) (Rect.setRight x0 x1) := by
  sim_def Rect.setRight
theorem sim_Rect_setTop {a0 : Rect (PyNum lit)} {x0 : Rect (FP double)} (h0 : sim k a0 x0) {a1 : PyNum lit} {x1 : FP double} (h1 : sim l a1 x1) (hk : (max k l) + 2 ≤ 53) : sim ((max k l) + 2) (Rect.setTop a0 a1) (Rect.setTop x0 x1) := by
  sim_def Rect.setTop
theorem sim_Rect_setBottom {a0 : Rect (PyNum lit)} {x0 : Rect (FP double)} (h0 : sim k a0 x0) {a1 : PyNum lit} {x1 : FP double} (h1 : sim l a1 x1) (hk : (max k l) + 1 ≤ 53) : sim ((max k l) + 1) (Rect.setBottom a0 a1) (Rect.setBottom x0 x1) := by
  sim_def Rect.setBottom
theorem sim_Rect_setLength {a0 : Rect (PyNum lit)} {x0 : Rect (FP double)} (h0 : sim k a0 x0) {a1 : PyNum lit} {x1 : FP double} (h1 : sim l a1 x1) : sim ((max k l)) (Rect.setLength a0 a1) (Rect.setLength x0 x1) := by
  sim_def Rect.setLength
theorem sim_Rect_setWidth {a0 : Rect (PyNum lit)} {x0 : Rect (FP double)} (h0 : sim k a0 x0) {a1 : PyNum lit} {x1 : FP double} (h1 : sim l a1 x1) : sim ((max k l)) (Rect.setWidth a0 a1) (Rect.setWidth x0 x1) := by
  sim_def Rect.setWidth
theorem sim_Rect_setSize {a0 : Rect (PyNum lit)} {x0 : Rect (FP double)} (h0 : sim k a0 x0) {a1 : PyNum lit} {x1 : FP double} (h1 : sim l a1 x1) {a2 : PyNum lit} {x2 : FP double} (h2 : sim j a2 x2) : sim ((max k (max l j))) (Rect.setSize a0 a1 a2) (Rect.setSize x0 x1 x2) := by
  sim_def Rect.setSize
theorem sim_Rect_isValid {a0 : Rect (PyNum lit)} {x0 : Rect (FP double)} (h0 : sim k a0 x0) : sim (0) (Rect.isValid a0) (Rect.isValid x0) := by
  sim_def Rect.isValid
theorem sim_Rect_area {a0 : Rect (PyNum lit)} {x0 : Rect (FP double)} (h0 : sim k a0 x0) (hk : 2 * k ≤ 53) : sim (2 * k) (Rect.area a0) (Rect.area x0) := by
  sim_def Rect.area
theorem sim_Rect_contains {a0 : Rect (PyNum lit)} {x0 : Rect (FP double)} (h0 : sim k a0 x0) {a1 : Vec (PyNum lit)} {x1 : Vec (FP double)} (h1 : sim l a1 x1) (hk : k + 1 ≤ 53) : sim (0) (Rect.contains a0 a1) (Rect.contains x0 x1) := by
  sim_def Rect.contains
theorem sim_Rect_center {a0 : Rect (PyNum lit)} {x0 : Rect (FP double)} (h0 : sim k a0 x0) (hk : k + 2 ≤ 53) : sim (0) (Rect.center a0) (Rect.center x0) := by
  sim_def Rect.center
theorem sim_Rect_getTopLeft {a0 : Rect (PyNum lit)} {x0 : Rect (FP double)} (h0 : sim k a0 x0) : sim (k) (Rect.getTopLeft a0) (Rect.getTopLeft x0) := by
  sim_def Rect.getTopLeft
theorem sim_Rect_topRight {a0 : Rect (PyNum lit)} {x0 : Rect (FP double)} (h0 : sim k a0 x0) (hk : k + 1 ≤ 53) : sim (k + 1) (Rect.topRight a0) (Rect.topRight x0) := by
  sim_def Rect.topRight
theorem sim_Rect_bottomLeft {a0 : Rect (PyNum lit)} {x0 : Rect (FP double)} (h0 : sim k a0 x0) (hk : k + 1 ≤ 53) : sim (k + 1) (Rect.bottomLeft a0) (Rect.bottomLeft x0) := by
  sim_def Rect.bottomLeft
theorem sim_Rect_bottomRight {a0 : Rect (PyNum lit)} {x0 : Rect (FP double)} (h0 : sim k a0 x0) (hk : k + 1 ≤ 53) : sim (k + 1) (Rect.bottomRight a0) (Rect.bottomRight x0) := by
  sim_def Rect.bottomRight
theorem sim_Rect_leftEdge {a0 : Rect (PyNum lit)} {x0 : Rect (FP double)} (h0 : sim k a0 x0) (hk : 2 * k + 4 ≤ 53) : sim (2 * k + 4) (Rect.leftEdge a0) (Rect.leftEdge x0) := by
  sim_def Rect.leftEdge
theorem sim_Rect_rightEdge {a0 : Rect (PyNum lit)} {x0 : Rect (FP double)} (h0 : sim k a0 x0) (hk : 2 * k + 4 ≤ 53) : sim (2 * k + 4) (Rect.rightEdge a0) (Rect.rightEdge x0) := by
  sim_def Rect.rightEdge
theorem sim_Rect_topEdge {a0 : Rect (PyNum lit)} {x0 : Rect (FP double)} (h0 : sim k a0 x0) (hk : 2 * k + 4 ≤ 53) : sim (2 * k + 4) (Rect.topEdge a0) (Rect.topEdge x0) := by
  sim_def Rect.topEdge
theorem sim_Rect_bottomEdge {a0 : Rect (PyNum lit)} {x0 : Rect (FP double)} (h0 : sim k a0 x0) (hk : 2 * k + 4 ≤ 53) : sim (2 * k + 4) (Rect.bottomEdge a0) (Rect.bottomEdge x0) := by
  sim_def Rect.bottomEdge
theorem sim_Rect_intersectionLine {a0 : Rect (PyNum lit)} {x0 : Rect (FP double)} (h0 : sim k a0 x0) {a1 : Line (PyNum lit)} {x1 : Line (FP double)} (h1 : sim l a1 x1) (hk : 2 * k + l + 5 ≤ 53) : sim (0) (Rect.intersectionLine a0 a1) (Rect.intersectionLine x0 x1) := by
  sim_def Rect.intersectionLine
theorem sim_Rect_intersectionRay {a0 : Rect (PyNum lit)} {x0 : Rect (FP double)} (h0 : sim k a0 x0) {a1 : Ray (PyNum lit)} {x1 : Ray (FP double)} (h1 : sim l a1 x1) (hk : 2 * k + l + 14 ≤ 53) : sim (0) (Rect.intersectionRay a0 a1) (Rect.intersectionRay x0 x1) := by
  sim_def Rect.intersectionRay
theorem sim_Rect_intersectionSeg {a0 : Rect (PyNum lit)} {x0 : Rect (FP double)} (h0 : sim k a0 x0) {a1 : Seg (PyNum lit)} {x1 : Seg (FP double)} (h1 : sim l a1 x1) (hk : 2 * k + 2 * l + 7 ≤ 53) : sim (0) (Rect.intersectionSeg a0 a1) (Rect.intersectionSeg x0 x1) := by
  sim_def Rect.intersectionSeg
theorem sim_Rect_intersected {a0 : Rect (PyNum lit)} {x0 : Rect (FP double)} (h0 : sim k a0 x0) {a1 : Rect (PyNum lit)} {x1 : Rect (FP double)} (h1 : sim l a1 x1) (hk : (max k l) + 2 ≤ 53) : sim ((max k l) + 2) (Rect.intersected a0 a1) (Rect.intersected x0 x1) := by
  sim_def Rect.intersected
theorem sim_Rect_united {a0 : Rect (PyNum lit)} {x0 : Rect (FP double)} (h0 : sim k a0 x0) {a1 : Rect (PyNum lit)} {x1 : Rect (FP double)} (h1 : sim l a1 x1) (hk : (max k l) + 2 ≤ 53) : sim ((max k l) + 2) (Rect.united a0 a1) (Rect.united x0 x1) := by
  sim_def Rect.united
theorem sim_Rect_fromCenter4 {a0 : PyNum lit} {x0 : FP double} (h0 : sim k a0 x0) {a1 : PyNum lit} {x1 : FP double} (h1 : sim l a1 x1) {a2 : PyNum lit} {x2 : FP double} (h2 : sim j a2 x2) {a3 : PyNum lit} {x3 : FP double} (h3 : sim i a3 x3) (hk : (max k (max l (max j i))) + 1 ≤ 53) : sim ((max k (max l (max j i))) + 1) (Rect.fromCenter4 a0 a1 a2 a3) (Rect.fromCenter4 x0 x1 x2 x3) := by
  sim_def Rect.fromCenter4

theorem sim_Mat_mk {a b c d e f : PyNum lit} {x y z u v w : FP double} {h : ℕ} (h1 : sim k a x) (h2 : sim l b y) (h3 : sim j c z) (h4 : sim i d u)
    (h5 : sim g e v) (h6 : sim h f w) : sim (max k (max l (max j (max i (max g h))))) (⟨a, b, c, d, e, f⟩ : Mat (PyNum lit))
      (⟨x, y, z, u, v, w⟩ : Mat (FP double)) :=
  ⟨⟨NumSim.mono h1 (by omega), NumSim.mono h2 (by omega), NumSim.mono h3 (by omega)⟩, NumSim.mono h4 (by omega), NumSim.mono h5 (by omega), NumSim.mono h6 (by omega)⟩
theorem sim_Mat_m11 {a : Mat (PyNum lit)} {x : Mat (FP double)} (h : sim k a x) : sim k a.m11 x.m11 := h.1.1
theorem sim_Mat_m12 {a : Mat (PyNum lit)} {x : Mat (FP double)} (h : sim k a x) : sim k a.m12 x.m12 := h.1.2.1
theorem sim_Mat_m21 {a : Mat (PyNum lit)} {x : Mat (FP double)} (h : sim k a x) : sim k a.m21 x.m21 := h.1.2.2
theorem sim_Mat_m22 {a : Mat (PyNum lit)} {x : Mat (FP double)} (h : sim k a x) : sim k a.m22 x.m22 := h.2.1
theorem sim_Mat_dx {a : Mat (PyNum lit)} {x : Mat (FP double)} (h : sim k a x) : sim k a.dx x.dx := h.2.2.1
theorem sim_Mat_dy {a : Mat (PyNum lit)} {x : Mat (FP double)} (h : sim k a x) : sim k a.dy x.dy := h.2.2.2

theorem sim_Mat_identity  : sim (0) ((Mat.identity : Mat (PyNum lit))) ((Mat.identity : Mat (FP double))) := by
  sim_def Mat.identity
theorem sim_Mat_det {a0 : Mat (PyNum lit)} {x0 : Mat (FP double)} (h0 : sim k a0 x0) (hk : 2 * k + 1 ≤ 53) : sim (2 * k + 1) (Mat.det a0) (Mat.det x0) := by
  sim_def Mat.det
theorem sim_Mat_invertible {a0 : Mat (PyNum lit)} {x0 : Mat (FP double)} (h0 : sim k a0 x0) (hk : 2 * k + 1 ≤ 53) : sim (0) (Mat.invertible a0) (Mat.invertible x0) := by
  sim_def Mat.invertible
theorem sim_Mat_inverted {a0 : Mat (PyNum lit)} {x0 : Mat (FP double)} (h0 : sim k a0 x0) (hk : 2 * k + 1 ≤ 53) : sim (0) (Mat.inverted a0) (Mat.inverted x0) := by
  sim_def Mat.inverted
theorem sim_Mat_translate {a0 : Mat (PyNum lit)} {x0 : Mat (FP double)} (h0 : sim k a0 x0) {a1 : PyNum lit} {x1 : FP double} (h1 : sim l a1 x1) {a2 : PyNum lit} {x2 : FP double} (h2 : sim j a2 x2) (hk : (max k (max l j)) + 1 ≤ 53) : sim ((max k (max l j)) + 1) (Mat.translate a0 a1 a2) (Mat.translate x0 x1 x2) := by
  sim_def Mat.translate
theorem sim_Mat_scale {a0 : Mat (PyNum lit)} {x0 : Mat (FP double)} (h0 : sim k a0 x0) {a1 : PyNum lit} {x1 : FP double} (h1 : sim l a1 x1) {a2 : PyNum lit} {x2 : FP double} (h2 : sim j a2 x2) (hk : k + max l j ≤ 53) : sim (k + max l j) (Mat.scale a0 a1 a2) (Mat.scale x0 x1 x2) := by
  sim_def Mat.scale
theorem sim_Mat_rotate {a0 : Mat (PyNum lit)} {x0 : Mat (FP double)} (h0 : sim k a0 x0) {a1 : AngleDeg (PyNum lit)} {x1 : AngleDeg (FP double)} (h1 : sim l a1 x1) (hk : (max k l) + 1 ≤ 53) : sim (k + 1) (Mat.rotate a0 a1) (Mat.rotate x0 x1) := by
  sim_def Mat.rotate
theorem sim_Mat_transformXY {a0 : Mat (PyNum lit)} {x0 : Mat (FP double)} (h0 : sim k a0 x0) {a1 : PyNum lit} {x1 : FP double} (h1 : sim l a1 x1) {a2 : PyNum lit} {x2 : FP double} (h2 : sim j a2 x2) (hk : k + max l j + 2 ≤ 53) : sim (k + max l j + 2) (Mat.transformXY a0 a1 a2) (Mat.transformXY x0 x1 x2) := by
  sim_def Mat.transformXY
theorem sim_Mat_transform {a0 : Mat (PyNum lit)} {x0 : Mat (FP double)} (h0 : sim k a0 x0) {a1 : Vec (PyNum lit)} {x1 : Vec (FP double)} (h1 : sim l a1 x1) (hk : k + l + 2 ≤ 53) : sim (k + l + 2) (Mat.transform a0 a1) (Mat.transform x0 x1) := by
  sim_def Mat.transform
theorem sim_Mat_transformVec {a0 : Mat (PyNum lit)} {x0 : Mat (FP double)} (h0 : sim k a0 x0) {a1 : Vec (PyNum lit)} {x1 : Vec (FP double)} (h1 : sim l a1 x1) (hk : k + l + 2 ≤ 53) : sim (k + l + 2) (Mat.transformVec a0 a1) (Mat.transformVec x0 x1) := by
  sim_def Mat.transformVec
theorem sim_Mat_makeTranslation {a0 : PyNum lit} {x0 : FP double} (h0 : sim k a0 x0) {a1 : PyNum lit} {x1 : FP double} (h1 : sim l a1 x1) : sim ((max k l)) (Mat.makeTranslation a0 a1) (Mat.makeTranslation x0 x1) := by
  sim_def Mat.makeTranslation
theorem sim_Mat_makeScaling {a0 : PyNum lit} {x0 : FP double} (h0 : sim k a0 x0) {a1 : PyNum lit} {x1 : FP double} (h1 : sim l a1 x1) : sim ((max k l)) (Mat.makeScaling a0 a1) (Mat.makeScaling x0 x1) := by
  sim_def Mat.makeScaling
theorem sim_Mat_makeRotation {a0 : AngleDeg (PyNum lit)} {x0 : AngleDeg (FP double)} (h0 : sim k a0 x0) (hk : k ≤ 53) : sim (0) (Mat.makeRotation a0) (Mat.makeRotation x0) := by
  sim_def Mat.makeRotation
theorem sim_Mat_mul {a0 : Mat (PyNum lit)} {x0 : Mat (FP double)} (h0 : sim k a0 x0) {a1 : Mat (PyNum lit)} {x1 : Mat (FP double)} (h1 : sim l a1 x1) (hk : k + l + 2 ≤ 53) : sim (k + l + 2) (Mat.mul a0 a1) (Mat.mul x0 x1) := by
  sim_def Mat.mul
theorem sim_Mat_eq {a0 : Mat (PyNum lit)} {x0 : Mat (FP double)} (h0 : sim k a0 x0) {a1 : Mat (PyNum lit)} {x1 : Mat (FP double)} (h1 : sim l a1 x1) : sim (0) (Mat.eq a0 a1) (Mat.eq x0 x1) := by
  sim_def Mat.eq

theorem sim_Sector_mk {a : Vec (PyNum lit)} {x : Vec (FP double)} {b c : PyNum lit} {y z : FP double} {d e : AngleDeg (PyNum lit)} {u v : AngleDeg (FP double)}
    (h1 : sim k a x) (h2 : sim l b y) (h3 : sim j c z) (h4 : sim i d u) (h5 : sim g e v) :
    sim (max k (max l (max j (max i g)))) (⟨a, b, c, d, e⟩ : Sector (PyNum lit)) (⟨x, y, z, u, v⟩ : Sector (FP double)) :=
  ⟨⟨NumSim.mono h1 (by omega), NumSim.mono h2 (by omega), NumSim.mono h3 (by omega)⟩, NumSim.mono h4 (by omega), NumSim.mono h5 (by omega)⟩
theorem sim_Sector_center {a : Sector (PyNum lit)} {x : Sector (FP double)} (h : sim k a x) : sim k a.center x.center := h.1.1
theorem sim_Sector_minR {a : Sector (PyNum lit)} {x : Sector (FP double)} (h : sim k a x) : sim k a.minR x.minR := h.1.2.1
theorem sim_Sector_maxR {a : Sector (PyNum lit)} {x : Sector (FP double)} (h : sim k a x) : sim k a.maxR x.maxR := h.1.2.2
theorem sim_Sector_start {a : Sector (PyNum lit)} {x : Sector (FP double)} (h : sim k a x) : sim k a.start x.start := h.2.1
theorem sim_Sector_stop {a : Sector (PyNum lit)} {x : Sector (FP double)} (h : sim k a x) : sim k a.stop x.stop := h.2.2

theorem sim_Sector_ofArgs {a0 : Vec (PyNum lit)} {x0 : Vec (FP double)} (h0 : sim k a0 x0) {a1 : PyNum lit} {x1 : FP double} (h1 : sim l a1 x1) {a2 : PyNum lit} {x2 : FP double} (h2 : sim j a2 x2) {a3 : AngleDeg (PyNum lit)} {x3 : AngleDeg (FP double)} (h3 : sim i a3 x3) {a4 : AngleDeg (PyNum lit)} {x4 : AngleDeg (FP double)} (h4 : sim g a4 x4) (hk : (max k (max l (max j (max i g)))) ≤ 53) : sim (max (max k l) (max j 12)) (Sector.ofArgs a0 a1 a2 a3 a4) (Sector.ofArgs x0 x1 x2 x3 x4) := by
  sim_def Sector.ofArgs
theorem sim_Sector_radiusMin {a0 : Sector (PyNum lit)} {x0 : Sector (FP double)} (h0 : sim k a0 x0) : sim (k) (Sector.radiusMin a0) (Sector.radiusMin x0) := by
  sim_def Sector.radiusMin
theorem sim_Sector_radiusMax {a0 : Sector (PyNum lit)} {x0 : Sector (FP double)} (h0 : sim k a0 x0) : sim (k) (Sector.radiusMax a0) (Sector.radiusMax x0) := by
  sim_def Sector.radiusMax
theorem sim_Sector_arcDeg {a0 : Sector (PyNum lit)} {x0 : Sector (FP double)} (h0 : sim k a0 x0) (hk : k + 13 ≤ 53) : sim (13) (Sector.arcDeg a0) (Sector.arcDeg x0) := by
  sim_def Sector.arcDeg
theorem sim_Sector_area {a0 : Sector (PyNum lit)} {x0 : Sector (FP double)} (h0 : sim k a0 x0) (hk : 2 * k + 14 ≤ 53) : sim (0) (Sector.area a0) (Sector.area x0) := by
  sim_def Sector.area
theorem sim_Sector_contains {a0 : Sector (PyNum lit)} {x0 : Sector (FP double)} (h0 : sim k a0 x0) {a1 : Vec (PyNum lit)} {x1 : Vec (FP double)} (h1 : sim l a1 x1) (hk : 2 * (max k l) + 14 ≤ 53) : sim (0) (Sector.contains a0 a1) (Sector.contains x0 x1) := by
  sim_def Sector.contains
theorem sim_Sector_circumferenceMin {a0 : Sector (PyNum lit)} {x0 : Sector (FP double)} (h0 : sim k a0 x0) (hk : k + 14 ≤ 53) : sim (0) (Sector.circumferenceMin a0) (Sector.circumferenceMin x0) := by
  sim_def Sector.circumferenceMin
theorem sim_Sector_circumferenceMax {a0 : Sector (PyNum lit)} {x0 : Sector (FP double)} (h0 : sim k a0 x0) (hk : k + 14 ≤ 53) : sim (0) (Sector.circumferenceMax a0) (Sector.circumferenceMax x0) := by
  sim_def Sector.circumferenceMax
theorem sim_Sector_eq {a0 : Sector (PyNum lit)} {x0 : Sector (FP double)} (h0 : sim k a0 x0) {a1 : Sector (PyNum lit)} {x1 : Sector (FP double)} (h1 : sim l a1 x1) (hk : (max k l) + 13 ≤ 53) : sim (0) (Sector.eq a0 a1) (Sector.eq x0 x1) := by
  sim_def Sector.eq

end PyrusGeom
