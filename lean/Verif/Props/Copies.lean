import Verif.Props.Equality
import Verif.Props.Centers

/-! # C197: copies of lines and rays, `assign` and accessors of triangles -/

namespace PyrusGeom
open Spec

/-- **C197** The copy of a line has the same coefficients, so it consists of the same points and every point has the
same distance to it. -/
theorem C197_line (l : Line ℝ) : (l.copy.a, l.copy.b, l.copy.c) = (l.a, l.b, l.c) ∧ l.copy.pts = l.pts ∧
    ∀ p : Vec ℝ, l.copy.dist p = l.dist p := ⟨rfl, rfl, fun _ => rfl⟩

/-- **C197** The copy of a ray consists of the same points, reports the same direction and compares equal; its origin
is valid, whatever the flag of the original origin is. -/
theorem C197_ray (r : Ray ℝ) : r.copy.pts = r.pts ∧ r.copy.origin.pt = r.origin.pt ∧
    r.copy.dir.degree = r.dir.degree ∧ r.copy.eq r = true ∧ r.copy.origin.valid = true := by
  have hd : r.copy.dir.degree = r.dir.degree := by
    change (AngleDeg.ofNum (AngleDeg.ofNum r.dir.degree).degree).degree = _
    have h := AngleDeg.degree_mem r.dir
    rw [C02_exact _ h.1 h.2, C02_exact _ h.1 h.2]
  refine ⟨?_, rfl, hd, (C142_ray _ _).mpr ⟨rfl, 0, by rw [hd]; norm_num⟩, rfl⟩
  unfold Ray.pts
  rw [hd]; rfl

/-- **C197** A copied ray meets lines in the same points (directions in `[-180, 180]`, as every constructor leaves
them). -/
theorem C197_ray_meets (r : Ray ℝ) (h1 : -180 ≤ r.dir.deg) (h2 : r.dir.deg ≤ 180) (l : Line ℝ) :
    r.copy.intersectionLine l = r.intersectionLine l := by
  have h : r.copy = ⟨Vec.ofVec r.origin, r.dir⟩ := by
    have e : r.dir.degree = r.dir.deg := by
      unfold AngleDeg.degree; rw [AngleDeg.ofNum_of_mem h1 h2]
    unfold Ray.copy Ray.ofAngle AngleDeg.ofAngle
    rw [e, C02_exact _ h1 h2]
    have e2 : AngleDeg.ofNum r.dir.deg = r.dir := by ext; exact AngleDeg.ofNum_of_mem h1 h2
    rw [e2]
    rfl
  rw [h]
  rfl

/-- **C197** After `assign` the accessors of a triangle give the assigned points, valid, and nothing of the old
triangle is left. -/
theorem C197_triangle (t u : Tri ℝ) (s : Seg ℝ) (a b c : Vec ℝ) :
    ((t.assign3 a b c).getA.pt, (t.assign3 a b c).getB.pt, (t.assign3 a b c).getC.pt) = (a.pt, b.pt, c.pt) ∧
    ((t.assignSeg s c).getA.pt, (t.assignSeg s c).getB.pt, (t.assignSeg s c).getC.pt) =
      (s.origin.pt, s.terminal.pt, c.pt) ∧
    ((t.assign3 a b c).getA.valid && (t.assign3 a b c).getB.valid && (t.assign3 a b c).getC.valid) = true ∧
    t.assign3 a b c = u.assign3 a b c ∧ t.assignSeg s c = u.assignSeg s c ∧
    t.assignSeg s c = t.assign3 s.origin s.terminal c := ⟨rfl, rfl, rfl, rfl, rfl, rfl⟩

/-- Twice the area after `assign` is that of the assigned points. -/
theorem C197_triangle_area (t : Tri ℝ) (a b c : Vec ℝ) :
    (t.assign3 a b c).methodDsa = area2 a.pt b.pt c.pt ∧
    ((t.assign3 a b c).methodCcw = true ↔ 0 < area2 a.pt b.pt c.pt) := by
  have h : (t.assign3 a b c).methodDsa = area2 a.pt b.pt c.pt := Tri.dsa_real _ _ _
  refine ⟨h, ?_⟩
  rw [← h]
  simp only [Tri.methodCcw, Tri.ccw, Tri.methodDsa, decide_eq_true_eq, Nat.cast_zero]

example : (Ray.ofAngle (Vec.ofXY 1 2) (AngleDeg.ofNum (270:ℝ))).copy.dir.degree = -90 := by
  rw [(C197_ray _).2.2.1]
  have h : (AngleDeg.ofNum (270:ℝ)) = ⟨-90⟩ := by
    have h1 := AngleDeg.ofNum_normal (270:ℝ)
    obtain ⟨k, hk⟩ := AngleDeg.ofNum_angleEq (270:ℝ)
    have h2 : (k:ℝ) < 0 := by linarith [h1.2]
    have h3 : -2 < (k:ℝ) := by linarith [h1.1]
    have h4 : k = -1 := by
      have a : k < 0 := by exact_mod_cast h2
      have b : -2 < k := by exact_mod_cast h3
      omega
    ext
    rw [h4] at hk
    push_cast at hk
    linarith
  change (AngleDeg.ofAngle _).degree = _
  rw [h]
  change (AngleDeg.ofNum (AngleDeg.ofNum (-90:ℝ)).deg).degree = _
  rw [AngleDeg.ofNum_of_mem (by norm_num) (by norm_num)]
  exact C02_exact _ (by norm_num) (by norm_num)

end PyrusGeom
