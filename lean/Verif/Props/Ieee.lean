import Verif.Model.Ieee
import Verif.Props.FloatHull
import Verif.Model.Sector
import Verif.Model.SoccerMath

/-! # Properties C128–C131: NaN, infinities and overflow -/

namespace PyrusGeom
open Spec Hull Ieee SoccerMath

/-! ## Operations on finite values of bounded size -/

theorem pow_le_maxDouble {n : ℕ} (h : n ≤ 1023) : (2 : ℝ) ^ n ≤ maxDouble := by
  have h1 : (2 : ℝ) ^ n ≤ (2 : ℝ) ^ 1023 := pow_le_pow_right₀ one_le_two h
  have h2 : (2 : ℝ) ^ 1023 = 2 ^ 52 * (2 : ℝ) ^ (971 : ℤ) := by
    rw [show (2 : ℝ) ^ (971 : ℤ) = 2 ^ 971 from zpow_natCast 2 971, ← pow_add]
  have h3 : (2 : ℝ) ^ 52 * (2 : ℝ) ^ (971 : ℤ) ≤ (2 ^ 53 - 1) * (2 : ℝ) ^ (971 : ℤ) :=
    mul_le_mul_of_nonneg_right (by norm_num) (by positivity)
  exact (h1.trans h2.le).trans h3

theorem rne_abs_le_two_pow {n : ℕ} {x : ℝ} (h : |x| ≤ 2 ^ n) : |rne x| ≤ 2 ^ n := by
  rw [rne_abs]
  have := rne_mono h
  rwa [rne_of_isDouble (x := 2 ^ n) ⟨1, n, by norm_num, by omega, by simp⟩] at this

theorem Ieee.beq_iff (x y : Ieee) : (x == y) = true ↔ same x y := by
  classical
  exact decide_eq_true_iff

theorem Ieee.ofReal_of_le {n : ℕ} (hn : n ≤ 1023) {x : ℝ} (h : |x| ≤ 2 ^ n) : ofReal x = fin (rne x) :=
  if_pos ((rne_abs_le_two_pow h).trans (pow_le_maxDouble hn))

/-- `x` is the finite value `y`, and it is at most `2 ^ n`. -/
structure Sim (n : ℕ) (x : Ieee) (y : FP double) : Prop where
  eq : x = fin y.val
  le : |y.val| ≤ 2 ^ n

namespace Sim
variable {n m : ℕ} {x x' : Ieee} {y y' : FP double}

theorem of {v : ℝ} (h : |v| ≤ 2 ^ n) : Sim n (fin v) ⟨v⟩ := ⟨rfl, h⟩

theorem mono (h : Sim n x y) (hn : n ≤ m) : Sim m x y :=
  ⟨h.eq, h.le.trans (pow_le_pow_right₀ one_le_two hn)⟩

theorem ofReal {v : ℝ} (h : |v| ≤ 2 ^ n) (hn : n ≤ 1023) : Sim n (Ieee.ofReal v) ⟨rne v⟩ :=
  ⟨Ieee.ofReal_of_le hn h, rne_abs_le_two_pow h⟩

theorem num (k : ℕ) (h : k ≤ 2 ^ n) (hn : n ≤ 1023) : Sim n (num k) (num k) := by
  have : |(k : ℝ)| ≤ 2 ^ n := by rw [abs_of_nonneg (by positivity)]; exact_mod_cast h
  exact ofReal this hn

theorem neg (h : Sim n x y) : Sim n (-x) (-y) := by
  obtain ⟨rfl, h⟩ := h
  exact ⟨rfl, by rw [FP.neg_val, abs_neg]; exact h⟩

theorem add (h : Sim n x y) (h' : Sim n x' y') (hn : n + 1 ≤ 1023) : Sim (n + 1) (x + x') (y + y') := by
  obtain ⟨rfl, h⟩ := h
  obtain ⟨rfl, h'⟩ := h'
  have := abs_add_le y.val y'.val
  exact ofReal (v := y.val + y'.val) (by rw [pow_succ]; linarith) hn

theorem sub (h : Sim n x y) (h' : Sim n x' y') (hn : n + 1 ≤ 1023) : Sim (n + 1) (x - x') (y - y') := by
  have := h.add h'.neg hn
  have e : y + -y' = y - y' := by
    apply FP.ext; change rne (y.val + -y'.val) = rne (y.val - y'.val); rw [sub_eq_add_neg]
  rw [e] at this
  exact this

theorem mul (h : Sim n x y) (h' : Sim m x' y') (hn : n + m ≤ 1023) : Sim (n + m) (x * x') (y * y') := by
  obtain ⟨rfl, h⟩ := h
  obtain ⟨rfl, h'⟩ := h'
  exact ofReal (v := y.val * y'.val) (by
    rw [abs_mul, pow_add]; exact mul_le_mul h h' (abs_nonneg _) (by positivity)) hn

theorem sqrt (h : Sim n x y) (h0 : 0 ≤ y.val) (hn : n ≤ 1023) : Sim n (PyMath.sqrt x) (PyMath.sqrt y) := by
  obtain ⟨rfl, h⟩ := h
  have e : (PyMath.sqrt (fin y.val) : Ieee) = Ieee.ofReal (Real.sqrt y.val) := if_pos h0
  rw [e]
  refine ofReal ?_ hn
  rw [abs_of_nonneg (Real.sqrt_nonneg _)]
  rw [abs_of_nonneg h0] at h
  have h1 : (1 : ℝ) ≤ 2 ^ n := one_le_pow₀ one_le_two
  rw [Real.sqrt_le_left (by positivity)]
  nlinarith

theorem lt (h : Sim n x y) (h' : Sim m x' y') : (x < x') ↔ y < y' := by
  obtain ⟨rfl, h⟩ := h
  obtain ⟨rfl, h'⟩ := h'
  exact Iff.rfl

theorem le' (h : Sim n x y) (h' : Sim m x' y') : (x ≤ x') ↔ y ≤ y' := by
  obtain ⟨rfl, h⟩ := h
  obtain ⟨rfl, h'⟩ := h'
  exact Iff.rfl

theorem beq (h : Sim n x y) (h' : Sim m x' y') : (x == x') = (y == y') := by
  obtain ⟨rfl, h⟩ := h
  obtain ⟨rfl, h'⟩ := h'
  rw [Bool.eq_iff_iff, fp_beq, Ieee.beq_iff]
  exact Iff.rfl

theorem fabs (h : Sim n x y) (hn : n ≤ 1023) : Sim n (fabs x) (fabs y) := by
  have h0 := h.lt (num (n := n) 0 (by positivity) hn)
  unfold PyrusGeom.fabs
  by_cases c : y < PyrusGeom.num 0
  · rw [if_pos c, if_pos (h0.mpr c)]; exact h.neg
  · rw [if_neg c, if_neg (fun k => c (h0.mp k))]; exact h

theorem ite {p q : Prop} [Decidable p] [Decidable q] (c : p ↔ q) (h : Sim n x y) (h' : Sim n x' y') :
    Sim n (if p then x else x') (if q then y else y') := by
  by_cases k : q
  · rw [if_pos k, if_pos (c.mpr k)]; exact h
  · rw [if_neg k, if_neg (fun l => k (c.mp l))]; exact h'

theorem unique (h : Sim n x y) (h' : Sim m x y') : y = y' := by
  obtain ⟨rfl, h⟩ := h
  have := h'.eq
  injection this with this
  exact FP.ext this

end Sim

/-! ## Points, segments, … -/

/-- The same value, in the model with overflow. -/
def FP.ieee (x : FP double) : Ieee := fin x.val
def Vec.ieee (v : Vec (FP double)) : Vec Ieee := ⟨v.x.ieee, v.y.ieee, v.valid⟩
def Seg.ieee (s : Seg (FP double)) : Seg Ieee := ⟨s.origin.ieee, s.terminal.ieee⟩
def Rect.ieee (r : Rect (FP double)) : Rect Ieee := ⟨r.topLeft.ieee, ⟨r.size.length.ieee, r.size.width.ieee⟩⟩
def Circle.ieee (c : Circle (FP double)) : Circle Ieee := ⟨c.center.ieee, c.radius.ieee⟩
def Poly.ieee (p : Poly (FP double)) : Poly Ieee := ⟨p.vertices.map Vec.ieee⟩

/-- Both coordinates are at most `2 ^ n`. -/
def Vec.Below (n : ℕ) (v : Vec (FP double)) : Prop := |v.x.val| ≤ 2 ^ n ∧ |v.y.val| ≤ 2 ^ n

theorem Sim.mk' {n : ℕ} {x : FP double} (h : |x.val| ≤ 2 ^ n) : Sim n x.ieee x := ⟨rfl, h⟩

structure VSim (n : ℕ) (u : Vec Ieee) (v : Vec (FP double)) : Prop where
  x : Sim n u.x v.x
  y : Sim n u.y v.y
  valid : u.valid = v.valid

theorem Vec.Below.sim {n : ℕ} {v : Vec (FP double)} (h : v.Below n) : VSim n v.ieee v := ⟨.mk' h.1, .mk' h.2, rfl⟩

namespace VSim
variable {n m : ℕ} {a b c p : Vec Ieee} {a' b' c' p' : Vec (FP double)}

theorem eq' (h : VSim n a a') : a = a'.ieee := by
  cases a
  obtain ⟨h1, h2, h3⟩ := h
  exact Vec.ext h1.eq h2.eq h3

theorem below (h : VSim n a a') : a'.Below n := ⟨h.x.le, h.y.le⟩

theorem mono (h : VSim n a a') (hn : n ≤ m) : VSim m a a' := ⟨h.x.mono hn, h.y.mono hn, h.valid⟩

theorem ofVec (h : VSim n a a') : VSim n (Vec.ofVec a) (Vec.ofVec a') := ⟨h.x, h.y, rfl⟩

theorem sub (ha : VSim n a a') (hb : VSim n b b') (hn : n + 1 ≤ 1023) : VSim (n + 1) (a.sub b) (a'.sub b') :=
  ⟨ha.x.sub hb.x hn, ha.y.sub hb.y hn, rfl⟩

theorem outer (ha : VSim n a a') (hb : VSim n b b') (hn : 2 * n + 1 ≤ 1023) :
    Sim (2 * n + 1) (a.outerProduct b) (a'.outerProduct b') := by
  have e : 2 * n = n + n := by omega
  rw [e] at hn ⊢
  exact (ha.x.mul hb.y (by omega)).sub (ha.y.mul hb.x (by omega)) hn

theorem dsa (ha : VSim n a a') (hb : VSim n b b') (hc : VSim n c c') (hn : 2 * n + 3 ≤ 1023) :
    Sim (2 * n + 3) (Tri.dsa a b c) (Tri.dsa a' b' c') := by
  have e : 2 * n + 3 = (n + 1) + (n + 1) + 1 := by omega
  rw [e] at hn ⊢
  exact ((ha.x.sub hc.x (by omega)).mul (hb.y.sub hc.y (by omega)) (by omega)).add
    ((hb.x.sub hc.x (by omega)).mul (hc.y.sub ha.y (by omega)) (by omega)) hn

theorem dist2 (ha : VSim n a a') (hb : VSim n b b') (hn : 2 * n + 3 ≤ 1023) :
    Sim (2 * n + 3) (a.dist2 b) (a'.dist2 b') := by
  have e : 2 * n + 3 = (n + 1) + (n + 1) + 1 := by omega
  rw [e] at hn ⊢
  have h1 := ha.x.sub hb.x (by omega)
  have h2 := ha.y.sub hb.y (by omega)
  exact (h1.mul h1 (by omega)).add (h2.mul h2 (by omega)) hn

theorem r2 (ha : VSim n a a') (hn : 2 * n + 1 ≤ 1023) : Sim (2 * n + 1) a.r2 a'.r2 := by
  have e : 2 * n = n + n := by omega
  rw [e] at hn ⊢
  exact (ha.x.mul ha.x (by omega)).add (ha.y.mul ha.y (by omega)) hn

theorem eq (ha : VSim n a a') (hb : VSim m b b') : a.eq b = a'.eq b' := by
  unfold Vec.eq
  rw [ha.x.beq hb.x, ha.y.beq hb.y]

theorem triContains (ha : VSim n a a') (hb : VSim n b b') (hc : VSim n c c') (hp : VSim n p p') (hn : 2 * n + 3 ≤ 1023) :
    Tri.triContains a b c p = Tri.triContains a' b' c' p' := by
  have h1 := (ha.sub hp (by omega)).ofVec
  have h2 := (hb.sub hp (by omega)).ofVec
  have h3 := (hc.sub hp (by omega)).ofVec
  have o1 := h1.outer h2 (by omega)
  have o2 := h2.outer h3 (by omega)
  have o3 := h3.outer h1 (by omega)
  have z := Sim.num (n := 0) 0 (by norm_num) (by norm_num)
  unfold Tri.triContains
  simp only [z.le' o1, z.le' o2, z.le' o3, o1.le' z, o2.le' z, o3.le' z]

end VSim

structure SSim (n : ℕ) (s : Seg Ieee) (s' : Seg (FP double)) : Prop where
  o : VSim n s.origin s'.origin
  t : VSim n s.terminal s'.terminal

namespace SSim
variable {n : ℕ} {s o : Seg Ieee} {s' o' : Seg (FP double)} {p : Vec Ieee} {p' : Vec (FP double)}

theorem check (h : SSim n s s') (hp : VSim n p p') : s.checkIntersectsOnLine p = s'.checkIntersectsOnLine p' := by
  unfold Seg.checkIntersectsOnLine
  simp only [h.o.x.beq h.t.x, h.o.y.le' hp.y, hp.y.le' h.o.y, h.t.y.le' hp.y, hp.y.le' h.t.y, h.o.x.le' hp.x, hp.x.le' h.o.x,
    h.t.x.le' hp.x, hp.x.le' h.t.x]

theorem exist (h : SSim n s s') (h' : SSim n o o') (hn : 4 * n + 6 ≤ 1023) : s.existIntersection o = s'.existIntersection o' := by
  have a0 := h.o.dsa h.t h'.o (by omega)
  have a1 := h.o.dsa h.t h'.t (by omega)
  have b0 := h'.o.dsa h'.t h.o (by omega)
  have b1 := h'.o.dsa h'.t h.t (by omega)
  have z := Sim.num (n := 0) 0 (by norm_num) (by norm_num)
  have m0 := (a0.mul a1 (by omega)).lt z
  have m1 := (b0.mul b1 (by omega)).lt z
  unfold Seg.existIntersection
  simp only [m0, m1, a0.beq z, a1.beq z, b0.beq z, b1.beq z, h.o.eq h.t, h'.o.eq h'.t, h.o.eq h'.o, h.check h'.o, h.check h'.t,
    h'.check h.o, h'.check h.t]

theorem except (h : SSim n s s') (h' : SSim n o o') (hn : 4 * n + 6 ≤ 1023) :
    s.existIntersectionExceptEndpoint o = s'.existIntersectionExceptEndpoint o' := by
  have a0 := h.o.dsa h.t h'.o (by omega)
  have a1 := h.o.dsa h.t h'.t (by omega)
  have b0 := h'.o.dsa h'.t h.o (by omega)
  have b1 := h'.o.dsa h'.t h.t (by omega)
  have z := Sim.num (n := 0) 0 (by norm_num) (by norm_num)
  have m0 := (a0.mul a1 (by omega)).lt z
  have m1 := (b0.mul b1 (by omega)).lt z
  unfold Seg.existIntersectionExceptEndpoint
  simp only [m0, m1]

theorem onSegment (h : SSim n s s') (hp : VSim n p p') (hn : 2 * n + 3 ≤ 1023) : s.onSegment p = s'.onSegment p' := by
  have a0 := h.o.dsa h.t hp (by omega)
  have z := Sim.num (n := 0) 0 (by norm_num) (by norm_num)
  unfold Seg.onSegment
  rw [a0.beq z, h.check hp]

end SSim

structure RSim (n : ℕ) (r : Rect Ieee) (r' : Rect (FP double)) : Prop where
  tl : VSim n r.topLeft r'.topLeft
  len : Sim n r.size.length r'.size.length
  wid : Sim n r.size.width r'.size.width

namespace RSim
variable {n : ℕ} {r : Rect Ieee} {r' : Rect (FP double)} {p : Vec Ieee} {p' : Vec (FP double)}

theorem left (h : RSim n r r') : Sim n r.left r'.left := h.tl.x
theorem top (h : RSim n r r') : Sim n r.top r'.top := h.tl.y
theorem right (h : RSim n r r') (hn : n + 1 ≤ 1023) : Sim (n + 1) r.right r'.right := h.tl.x.add h.len hn
theorem bottom (h : RSim n r r') (hn : n + 1 ≤ 1023) : Sim (n + 1) r.bottom r'.bottom := h.tl.y.add h.wid hn

theorem contains {m : ℕ} (h : RSim n r r') (hp : VSim m p p') (hn : n + 1 ≤ 1023) : r.contains p = r'.contains p' := by
  unfold Rect.contains
  simp only [h.left.le' hp.x, hp.x.le' (h.right hn), h.top.le' hp.y, hp.y.le' (h.bottom hn)]

end RSim

/-! ### Polygons -/

inductive OSim (n : ℕ) : Option Ieee → Option (FP double) → Prop
  | none : OSim n none none
  | some {x y} : Sim n x y → OSim n (some x) (some y)

theorem OSim.updMin {n : ℕ} {m : Option Ieee} {m' : Option (FP double)} (h : OSim n m m') {x : Ieee} {y : FP double}
    (hx : Sim n x y) : OSim n (Poly.updMin m x) (Poly.updMin m' y) := by
  cases h with
  | none => exact .some hx
  | @some a b hm =>
    simp only [Poly.updMin]
    by_cases c : y < b
    · rw [if_pos c, if_pos ((hx.lt hm).mpr c)]; exact .some hx
    · rw [if_neg c, if_neg (fun k => c ((hx.lt hm).mp k))]; exact .some hm

theorem OSim.updMax {n : ℕ} {m : Option Ieee} {m' : Option (FP double)} (h : OSim n m m') {x : Ieee} {y : FP double}
    (hx : Sim n x y) : OSim n (Poly.updMax m x) (Poly.updMax m' y) := by
  cases h with
  | none => exact .some hx
  | @some a b hm =>
    simp only [Poly.updMax]
    by_cases c : b < y
    · rw [if_pos c, if_pos ((hm.lt hx).mpr c)]; exact .some hx
    · rw [if_neg c, if_neg (fun k => c ((hm.lt hx).mp k))]; exact .some hm

structure BSim (n : ℕ) (b : Poly.Bounds Ieee) (b' : Poly.Bounds (FP double)) : Prop where
  x0 : OSim n b.xMin b'.xMin
  x1 : OSim n b.xMax b'.xMax
  y0 : OSim n b.yMin b'.yMin
  y1 : OSim n b.yMax b'.yMax

theorem BSim.foldl {n : ℕ} (l : List (Vec (FP double))) (hl : ∀ v ∈ l, v.Below n) {b : Poly.Bounds Ieee}
    {b' : Poly.Bounds (FP double)} (h : BSim n b b') :
    BSim n ((l.map Vec.ieee).foldl Poly.boundsStep b) (l.foldl Poly.boundsStep b') := by
  induction l generalizing b b' with
  | nil => exact h
  | cons v l ih =>
    have hv := (hl v (by simp)).sim
    exact ih (fun w hw => hl w (by simp [hw])) ⟨h.x0.updMin hv.x, h.x1.updMax hv.x, h.y0.updMin hv.y, h.y1.updMax hv.y⟩

theorem boundingBox_ieee {n : ℕ} (hn : n + 1 ≤ 1023) (p : Poly (FP double)) (hp : ∀ v ∈ p.vertices, v.Below n) :
    (∃ e, p.boundingBox = .error e ∧ p.ieee.boundingBox = .error e) ∨
    ∃ r r', p.boundingBox = .ok r' ∧ p.ieee.boundingBox = .ok r ∧ RSim (n + 1) r r' := by
  cases hv : p.vertices with
  | nil =>
    left
    refine ⟨.exception, ?_, ?_⟩
    · unfold Poly.boundingBox; rw [hv]; rfl
    · unfold Poly.boundingBox Poly.ieee; rw [hv]; rfl
  | cons v l =>
    rw [hv] at hp
    have := BSim.foldl (v :: l) hp (b := {}) (b' := {}) ⟨.none, .none, .none, .none⟩
    obtain ⟨h0, h1, h2, h3⟩ := this
    unfold Poly.boundingBox Poly.ieee
    rw [hv]
    simp only [List.map_cons] at h0 h1 h2 h3 ⊢
    generalize (v.ieee :: l.map Vec.ieee).foldl Poly.boundsStep {} = b at *
    generalize (v :: l).foldl Poly.boundsStep {} = b' at *
    obtain ⟨bx0, bx1, by0, by1⟩ := b
    obtain ⟨cx0, cx1, cy0, cy1⟩ := b'
    simp only at h0 h1 h2 h3 ⊢
    cases h0 with
    | none => exact .inl ⟨_, rfl, rfl⟩
    | some h0 =>
      cases h1 with
      | none => exact .inl ⟨_, rfl, rfl⟩
      | some h1 =>
        cases h2 with
        | none => exact .inl ⟨_, rfl, rfl⟩
        | some h2 =>
          cases h3 with
          | none => exact .inl ⟨_, rfl, rfl⟩
          | some h3 =>
            exact .inr ⟨_, _, rfl, rfl, ⟨h0.mono (by omega), h2.mono (by omega), rfl⟩,
              (h1.sub h0 (by omega)).fabs (by omega), (h3.sub h2 (by omega)).fabs (by omega)⟩

theorem fp_r2_nonneg (v : Vec (FP double)) : 0 ≤ v.r2.val := by
  change 0 ≤ rne (rne (v.x.val * v.x.val) + rne (v.y.val * v.y.val))
  exact rne_nonneg (add_nonneg (rne_nonneg (mul_self_nonneg _)) (rne_nonneg (mul_self_nonneg _)))

theorem halfLine_ieee {n : ℕ} (hn : 2 * n + 9 ≤ 1023) {bb : Rect Ieee} {bb' : Rect (FP double)} (hb : RSim (n + 1) bb bb')
    {v p : Vec (FP double)} (hv : v.Below n) (hp : p.Below n) :
    SSim (2 * n + 9) (Poly.halfLine bb v.ieee p.ieee) (Poly.halfLine bb' v p) := by
  have h1 := (((hb.right (by omega)).sub (hb.left.mono (by omega)) (by omega)).add ((hb.bottom (by omega)).mono (by omega))
    (by omega)).sub (hb.top.mono (by omega)) (by omega)
  have h2 := ((hv.sim.sub hp.sim (by omega)).r2 (by omega)).sqrt (fp_r2_nonneg _) (by omega)
  have h3 := ((h1.mono (show _ ≤ 2 * n + 5 by omega)).add (h2.mono (show _ ≤ 2 * n + 5 by omega)) (by omega)).mul
    (Sim.num (n := 2) 3 (by norm_num) (by norm_num)) (by omega)
  have h4 := (hp.sim.x.mono (show n ≤ 2 * n + 5 + 1 + 2 by omega)).add h3 (by omega)
  exact ⟨(hp.sim.mono (by omega)).ofVec, h4, hp.sim.y.mono (by omega), rfl⟩

theorem containsLoop_ieee {n : ℕ} (hn : 4 * n + 6 ≤ 1023) {p : Vec Ieee} {p' : Vec (FP double)} (hp : VSim n p p')
    {line : Seg Ieee} {line' : Seg (FP double)} (hl : SSim n line line') (allow : Bool) :
    ∀ (E : List (Vec (FP double) × Vec (FP double))), (∀ e ∈ E, e.1.Below n ∧ e.2.Below n) → ∀ inside,
    Poly.containsLoop p allow line (E.map (Prod.map Vec.ieee Vec.ieee)) inside = Poly.containsLoop p' allow line' E inside
  | [], _, _ => rfl
  | (a, b) :: E, h, inside => by
    obtain ⟨ha, hb⟩ := h (a, b) (by simp)
    have ih := containsLoop_ieee hn hp hl allow E (fun e he => h e (by simp [he]))
    have hs : SSim n (Seg.ofPoints a.ieee b.ieee) (Seg.ofPoints a b) := ⟨ha.sim.ofVec, hb.sim.ofVec⟩
    simp only [List.map_cons, Prod.map_apply, Poly.containsLoop, ih, hs.onSegment hp (by omega), hp.eq ha.sim,
      hl.exist hs hn, ha.sim.y.beq hp.y, hb.sim.y.beq hp.y, ha.sim.y.beq hb.sim.y, ha.sim.y.lt hp.y, hb.sim.y.lt hp.y]

theorem mem_cyclicPairs_mem {α : Type} {l : List α} {e : α × α} (h : e ∈ cyclicPairs l) : e.1 ∈ l ∧ e.2 ∈ l := by
  cases l with
  | nil => simp [cyclicPairs] at h
  | cons a t =>
    have h1 := List.of_mem_zip (a := e.1) (b := e.2) h
    refine ⟨h1.1, ?_⟩
    have := h1.2
    simp only [List.mem_append, List.mem_singleton] at this
    simp only [List.mem_cons]; tauto

theorem poly_contains_ieee {n : ℕ} (hn : n ≤ 122) (p : Poly (FP double)) (hp : ∀ v ∈ p.vertices, v.Below n) (q : Vec (FP double))
    (hq : q.Below n) (allow : Bool) : p.ieee.contains q.ieee allow = p.contains q allow := by
  obtain ⟨vs⟩ := p
  have hbb := boundingBox_ieee (n := n) (by omega) ⟨vs⟩ hp
  match vs, hp with
  | [], _ => rfl
  | [v], hp =>
    have := (hp v (by simp)).sim.eq hq.sim
    simp only [Poly.contains, Poly.ieee, List.map_cons, List.map_nil, this]
  | v0 :: v1 :: vs, hp =>
    have e : Poly.ieee ⟨v0 :: v1 :: vs⟩ = ⟨v0.ieee :: v1.ieee :: vs.map Vec.ieee⟩ := rfl
    have hc : ∀ {e}, e ∈ cyclicPairs (v0 :: v1 :: vs) → _ := mem_cyclicPairs_mem (l := v0 :: v1 :: vs)
    have e2 := cyclicPairs_map Vec.ieee (v0 :: v1 :: vs)
    simp only [List.map_cons] at e2
    rw [e] at hbb ⊢
    simp only [Poly.contains]
    rcases hbb with ⟨e, h1, h2⟩ | ⟨r, r', h1, h2, hr⟩
    · rw [h1, h2]
    · rw [h1, h2]
      simp only [hr.contains hq.sim (by omega)]
      have hh := halfLine_ieee (n := n) (by omega) hr (hp v0 (by simp)) hq
      have := containsLoop_ieee (n := 2 * n + 9) (by omega) (hq.sim.mono (by omega)) hh allow (cyclicPairs (v0 :: v1 :: vs))
        (fun e he => ⟨((hp _ (hc he).1).sim.mono (by omega)).below, ((hp _ (hc he).2).sim.mono (by omega)).below⟩) false
      rw [e2, this]

/-! ### Area of polygons -/

theorem isDouble_mul_pow {i n : ℕ} (hi : i ≤ 2 ^ 53) : IsDouble ((i : ℝ) * 2 ^ n) :=
  ⟨i, n, by rw [abs_of_nonneg (by positivity)]; exact_mod_cast hi, by omega, by simp⟩

theorem isDouble_maxDouble : IsDouble maxDouble :=
  ⟨2 ^ 53 - 1, 971, by norm_num, by norm_num, by unfold maxDouble; norm_num⟩

theorem area_loop_ieee {n : ℕ} (hn : 2 * n + 54 ≤ 1023) : ∀ (E : List (Vec (FP double) × Vec (FP double)))
    (_ : ∀ e ∈ E, e.1.Below n ∧ e.2.Below n) (i : ℕ) (_ : i + E.length ≤ 2 ^ 53) (acc : FP double)
    (_ : |acc.val| ≤ i * 2 ^ (2 * n + 1)),
    (E.map (Prod.map Vec.ieee Vec.ieee)).foldl (fun acc e => acc + (e.1.x * e.2.y - e.2.x * e.1.y)) acc.ieee =
      (E.foldl (fun acc e => acc + (e.1.x * e.2.y - e.2.x * e.1.y)) acc).ieee
  | [], _, _, _, _, _ => rfl
  | (a, b) :: E, h, i, hi, acc, hacc => by
    obtain ⟨ha, hb⟩ := h (a, b) (by simp)
    have e1 : 2 * n + 1 = n + n + 1 := by omega
    have h1 : Sim (2 * n + 1) (a.ieee.x * b.ieee.y - b.ieee.x * a.ieee.y) (a.x * b.y - b.x * a.y) := by
      rw [e1]
      exact (ha.sim.x.mul hb.sim.y (by omega)).sub (hb.sim.x.mul ha.sim.y (by omega)) (by omega)
    have hle : |acc.val + (a.x * b.y - b.x * a.y).val| ≤ ((i + 1 : ℕ) : ℝ) * 2 ^ (2 * n + 1) := by
      have := abs_add_le acc.val (a.x * b.y - b.x * a.y).val
      have := h1.le
      push_cast
      linarith
    rw [List.length_cons] at hi
    have hle' : |(acc + (a.x * b.y - b.x * a.y)).val| ≤ ((i + 1 : ℕ) : ℝ) * 2 ^ (2 * n + 1) := by
      change |rne _| ≤ _
      rw [rne_abs]
      have := rne_mono hle
      rwa [rne_of_isDouble (isDouble_mul_pow (by omega))] at this
    have hs : acc.ieee + (a.ieee.x * b.ieee.y - b.ieee.x * a.ieee.y) = (acc + (a.x * b.y - b.x * a.y)).ieee := by
      rw [h1.eq]
      refine if_pos (hle'.trans ?_)
      have h2 : ((i + 1 : ℕ) : ℝ) ≤ 2 ^ 53 := by exact_mod_cast (by omega : i + 1 ≤ 2 ^ 53)
      have h3 : ((i + 1 : ℕ) : ℝ) * 2 ^ (2 * n + 1) ≤ 2 ^ 53 * 2 ^ (2 * n + 1) :=
        mul_le_mul_of_nonneg_right h2 (by positivity)
      rw [← pow_add] at h3
      exact h3.trans (pow_le_maxDouble (by omega))
    simp only [List.map_cons, List.foldl_cons, Prod.map_apply]
    rw [hs]
    exact area_loop_ieee hn E (fun e he => h e (by simp [he])) (i + 1) (by omega) _ hle'

theorem length_cyclicPairs' {α : Type} (l : List α) : (cyclicPairs l).length = l.length := by
  cases l with
  | nil => rfl
  | cons a t => simp [cyclicPairs]

theorem area_ieee {n : ℕ} (hn : 2 * n + 54 ≤ 1023) (p : Poly (FP double)) (hp : ∀ v ∈ p.vertices, v.Below n)
    (hl : p.vertices.length ≤ 2 ^ 53) : p.ieee.doubleSignedArea = p.doubleSignedArea.ieee := by
  have z := (Sim.num (n := 0) 0 (by norm_num) (by norm_num)).eq
  have hz : |(num 0 : FP double).val| ≤ (0 : ℕ) * 2 ^ (2 * n + 1) := by
    have h : (num 0 : FP double).val = 0 := fp_zero
    rw [h]; simp
  unfold Poly.doubleSignedArea Poly.ieee
  rw [List.length_map, cyclicPairs_map]
  split_ifs
  · exact z
  · rw [z]
    exact area_loop_ieee hn _ (fun e he => ⟨hp _ (mem_cyclicPairs_mem he).1, hp _ (mem_cyclicPairs_mem he).2⟩) 0
      (by rw [length_cyclicPairs']; omega) _ hz

/-! ### Gift wrapping -/

theorem ieee_zero : (Vec.zero : Vec (FP double)).ieee = Vec.zero := by
  have z := (Sim.num (n := 0) 0 (by norm_num) (by norm_num)).eq
  exact Vec.ext z.symm z.symm rfl

theorem at'_ieee (pts : List (Vec (FP double))) (i : ℕ) : at' (pts.map Vec.ieee) i = (at' pts i).ieee := by
  unfold at'
  rw [List.getD_eq_getElem?_getD, List.getD_eq_getElem?_getD, List.getElem?_map]
  cases pts[i]? with
  | none => exact ieee_zero.symm
  | some v => rfl

theorem at'_below {n : ℕ} {pts : List (Vec (FP double))} (h : ∀ v ∈ pts, v.Below n) (i : ℕ) : (at' pts i).Below n := by
  unfold at'
  rw [List.getD_eq_getElem?_getD]
  cases hi : pts[i]? with
  | some v => exact h _ (List.mem_of_getElem? hi)
  | none =>
    have hz : (num 0 : FP double).val = 0 := fp_zero
    have : |(num 0 : FP double).val| ≤ 2 ^ n := by rw [hz]; simp
    exact ⟨this, this⟩

theorem minStep_ieee {n : ℕ} {pts : List (Vec (FP double))} (h : ∀ v ∈ pts, v.Below n) (s : ℕ × Vec (FP double))
    (hs : s.2.Below n) (i : ℕ) :
    minStep (pts.map Vec.ieee) (s.1, s.2.ieee) i = ((minStep pts s i).1, (minStep pts s i).2.ieee) ∧
      (minStep pts s i).2.Below n := by
  have hi := at'_below h i
  unfold minStep
  rw [at'_ieee]
  simp only [hi.sim.x.lt hs.sim.x, hs.sim.x.beq hi.sim.x, hi.sim.y.lt hs.sim.y]
  split_ifs
  · exact ⟨rfl, hi⟩
  · exact ⟨rfl, hs⟩

theorem minPointIndex_ieee {n : ℕ} {pts : List (Vec (FP double))} (h : ∀ v ∈ pts, v.Below n) :
    minPointIndex (pts.map Vec.ieee) = minPointIndex pts := by
  have key : ∀ (l : List ℕ) (s : ℕ × Vec (FP double)), s.2.Below n → l.foldl (minStep (pts.map Vec.ieee)) (s.1, s.2.ieee) =
      ((l.foldl (minStep pts) s).1, (l.foldl (minStep pts) s).2.ieee) := by
    intro l
    induction l with
    | nil => intro s _; rfl
    | cons i l ih =>
      intro s hs
      obtain ⟨h1, h2⟩ := minStep_ieee h s hs i
      rw [List.foldl_cons, h1, ih _ h2, List.foldl_cons]
  unfold minPointIndex
  rw [List.length_map, at'_ieee, key _ (0, at' pts 0) (at'_below h 0)]

theorem EPSILON_sim : Sim 0 EPSILON EPSILON := by
  have h1 := Sim.num (n := 0) 1 (by norm_num) (by norm_num)
  have h2 := Sim.num (n := 20) 1000000 (by norm_num) (by norm_num)
  have e : (EPSILON : Ieee) = Ieee.ofReal ((num 1 : FP double).val / (num 1000000 : FP double).val) := by
    unfold EPSILON
    rw [h1.eq, h2.eq]; rfl
  rw [e]
  refine Sim.ofReal ?_ (by norm_num)
  have e1 : (num 1 : FP double).val = 1 := by
    change rne ((1 : ℕ) : ℝ) = _
    rw [rne_of_isDouble (isDouble_nat (n := 1) (by norm_num))]; norm_num
  have e2 : (num 1000000 : FP double).val = 1000000 := by
    change rne ((1000000 : ℕ) : ℝ) = _
    rw [rne_of_isDouble (isDouble_nat (n := 1000000) (by norm_num))]; norm_num
  rw [e1, e2]; norm_num

theorem candStep_ieee {n : ℕ} (hn : 2 * n + 3 ≤ 1023) {pts : List (Vec (FP double))} (h : ∀ v ∈ pts, v.Below n) (cur : ℕ)
    {curP : Vec (FP double)} (hc : curP.Below n) (used : List ℕ) (cand i : ℕ) :
    candStep (pts.map Vec.ieee) cur curP.ieee used cand i = candStep pts cur curP used cand i := by
  have z := Sim.num (n := 0) 0 (by norm_num) (by norm_num)
  have h1 := (at'_below h cand).sim
  have h2 := (at'_below h i).sim
  have hd := hc.sim.dsa h1 h2 hn
  have d1 := hc.sim.dist2 h1 hn
  have d2 := hc.sim.dist2 h2 hn
  unfold candStep
  simp only [at'_ieee, hd.lt z, hd.lt EPSILON_sim, d2.lt d1]

theorem nextIndex_ieee {n : ℕ} (hn : 2 * n + 3 ≤ 1023) {pts : List (Vec (FP double))} (h : ∀ v ∈ pts, v.Below n) (cur : ℕ)
    (used : List ℕ) : nextIndex (pts.map Vec.ieee) cur used = nextIndex pts cur used := by
  unfold nextIndex
  simp only [List.length_map, at'_ieee]
  congr 1
  funext c i
  exact candStep_ieee hn h cur (at'_below h cur) used c i

theorem wrapLoop_ieee {n : ℕ} (hn : 2 * n + 3 ≤ 1023) {pts : List (Vec (FP double))} (h : ∀ v ∈ pts, v.Below n) (m : ℕ)
    (fuel cur : ℕ) (used : List ℕ) (vs : List (Vec (FP double))) :
    wrapLoop (pts.map Vec.ieee) m fuel cur used (vs.map Vec.ieee) = (wrapLoop pts m fuel cur used vs).map Vec.ieee := by
  induction fuel generalizing cur used vs with
  | zero => rfl
  | succ fuel ih =>
    unfold wrapLoop
    simp only [nextIndex_ieee hn h, at'_ieee]
    have e : vs.map Vec.ieee ++ [(at' pts (nextIndex pts cur used)).ieee] =
        (vs ++ [at' pts (nextIndex pts cur used)]).map Vec.ieee := by simp
    rw [e]
    split_ifs
    · rfl
    · exact ih _ _ _

theorem wrapping_ieee {n : ℕ} (hn : 2 * n + 3 ≤ 1023) (pts : List (Vec (FP double))) (h : ∀ v ∈ pts, v.Below n) :
    (wrapping (Obj.ofList (pts.map Vec.ieee))).vertices = (wrapping (Obj.ofList pts)).vertices.map Vec.ieee := by
  have e1 : (Obj.ofList (pts.map Vec.ieee)).clearResults = Obj.ofList (pts.map Vec.ieee) := rfl
  have e2 : (Obj.ofList pts).clearResults = Obj.ofList pts := rfl
  unfold wrapping
  rw [e1, e2]
  have e3 : (Obj.ofList (pts.map Vec.ieee)).input = pts.map Vec.ieee := rfl
  have e4 : (Obj.ofList pts).input = pts := rfl
  simp only [e3, e4, List.length_map, minPointIndex_ieee h]
  split_ifs
  · rfl
  · have := wrapLoop_ieee hn h (minPointIndex pts).toNat (pts.length + 1) (minPointIndex pts).toNat []
      [at' pts (minPointIndex pts).toNat]
    simp only [List.map_cons, List.map_nil] at this
    rw [at'_ieee, this]
    simp only [Obj.vertices, Bool.false_eq_true, if_false]
    rw [← List.map_dropLast]

/-! ## NaN -/

namespace Ieee

@[simp] theorem nan_add (x : Ieee) : nan + x = nan := by cases x <;> rfl
@[simp] theorem add_nan (x : Ieee) : x + nan = nan := by cases x <;> rfl
@[simp] theorem nan_sub (x : Ieee) : nan - x = nan := by cases x <;> rfl
@[simp] theorem sub_nan (x : Ieee) : x - nan = nan := by cases x <;> rfl
@[simp] theorem nan_mul (x : Ieee) : nan * x = nan := by cases x <;> rfl
@[simp] theorem mul_nan (x : Ieee) : x * nan = nan := by cases x <;> rfl
@[simp] theorem not_nan_le (x : Ieee) : ¬ nan ≤ x := by cases x <;> exact id
@[simp] theorem not_le_nan (x : Ieee) : ¬ x ≤ nan := by cases x <;> exact id
@[simp] theorem not_nan_lt (x : Ieee) : ¬ nan < x := by cases x <;> exact id
@[simp] theorem not_lt_nan (x : Ieee) : ¬ x < nan := by cases x <;> exact id

@[simp] theorem nan_beq (x : Ieee) : (nan == x) = false := by
  rw [← Bool.not_eq_true, beq_iff]; cases x <;> exact id
@[simp] theorem beq_nan (x : Ieee) : (x == nan) = false := by
  rw [← Bool.not_eq_true, beq_iff]; cases x <;> exact id

end Ieee

/-- A coordinate is NaN. -/
def Vec.HasNan (v : Vec Ieee) : Prop := v.x = nan ∨ v.y = nan

theorem Vec.HasNan.dsa₁ {a b c : Vec Ieee} (h : a.HasNan) : Tri.dsa a b c = nan := by
  unfold Tri.dsa; rcases h with h | h <;> simp [h]
theorem Vec.HasNan.dsa₂ {a b c : Vec Ieee} (h : b.HasNan) : Tri.dsa a b c = nan := by
  unfold Tri.dsa; rcases h with h | h <;> simp [h]
theorem Vec.HasNan.dsa₃ {a b c : Vec Ieee} (h : c.HasNan) : Tri.dsa a b c = nan := by
  unfold Tri.dsa; rcases h with h | h <;> simp [h]

/-- **C129** No region contains a point with a NaN coordinate. -/
theorem C129_point (p : Vec Ieee) (h : p.HasNan) :
    (∀ r : Rect Ieee, r.contains p = false) ∧ (∀ c : Circle Ieee, c.contains p = false) ∧
    (∀ t : Tri Ieee, t.contains p = false) ∧ (∀ s : Sector Ieee, s.contains p = false) ∧
    (∀ (g : Poly Ieee) (allow : Bool), g.contains p allow = false) ∧
    (∀ s : Seg Ieee, s.contains p = false ∧ s.onSegment p = false) := by
  have hr : ∀ r : Rect Ieee, r.contains p = false := by
    intro r; unfold Rect.contains; rcases h with h | h <;> simp [h]
  refine ⟨hr, ?_, ?_, ?_, ?_, ?_⟩
  · intro c; unfold Circle.contains Vec.dist2 PyrusGeom.sq; rcases h with h | h <;> simp [h]
  · intro t; unfold Tri.contains Tri.triContains Vec.outerProduct Vec.sub Vec.ofXY Vec.ofVec
    rcases h with h | h <;> simp [h]
  · intro s; unfold Sector.contains Vec.r2 Vec.sub Vec.ofXY; rcases h with h | h <;> simp [h]
  · rintro ⟨vs⟩ allow
    match vs with
    | [] => rfl
    | [v] => unfold Poly.contains Vec.eq; rcases h with h | h <;> simp [h]
    | v0 :: v1 :: vs =>
      simp only [Poly.contains]
      cases hb : Poly.boundingBox (⟨v0 :: v1 :: vs⟩ : Poly Ieee) with
      | error e => rfl
      | ok bb => simp [hr bb]
  · intro s
    refine ⟨?_, ?_⟩
    · unfold Seg.contains; rcases h with h | h <;> simp [h]
    · unfold Seg.onSegment; simp [h.dsa₃]

/-- C129: the square of side 2 does not contain (NaN, 1). -/
example : (Rect.ofLTLW (fin 0) (fin 0) (fin 2) (fin 2)).contains (Vec.ofXY nan (fin 1)) = false :=
  (C129_point _ (.inl rfl)).1 _

/-- **C129** A rectangle, circle, triangle or sector with a NaN among its numbers contains no point at all (for a sector: the
numbers of its center and radii). The same holds for a rectangle from minus infinity of infinite length or width. -/
theorem C129_shape (p : Vec Ieee) :
    (∀ r : Rect Ieee, r.topLeft.HasNan ∨ r.size.length = nan ∨ r.size.width = nan → r.contains p = false) ∧
    (∀ c : Circle Ieee, c.center.HasNan ∨ c.radius = nan → c.contains p = false) ∧
    (∀ t : Tri Ieee, t.a.HasNan ∨ t.b.HasNan ∨ t.c.HasNan → t.contains p = false) ∧
    (∀ s : Sector Ieee, s.center.HasNan ∨ s.minR = nan ∨ s.maxR = nan → s.contains p = false) ∧
    (∀ (y w : Ieee), (Rect.ofLTLW (inf true) y (inf false) w).contains p = false ∧
      (Rect.ofLTLW y (inf true) w (inf false)).contains p = false) := by
  refine ⟨?_, ?_, ?_, ?_, ?_⟩
  · rintro r ((h | h) | h | h) <;> unfold Rect.contains Rect.right Rect.bottom Rect.left Rect.top <;> simp [h]
  · rintro c ((h | h) | h) <;> unfold Circle.contains Vec.dist2 PyrusGeom.sq <;> simp [h]
  · intro t h
    unfold Tri.contains Tri.triContains Vec.outerProduct Vec.sub Vec.ofXY Vec.ofVec
    rcases h with (h | h) | (h | h) | (h | h) <;> simp [h]
  · rintro s ((h | h) | h | h) <;> unfold Sector.contains Vec.r2 Vec.sub Vec.ofXY <;> simp [h]
  · intro y w
    have e : fabs (inf false) = inf false := if_neg (by rw [(Sim.num (n := 0) 0 (by norm_num) (by norm_num)).eq]; exact Bool.noConfusion)
    have e2 : (inf true + inf false : Ieee) = nan := rfl
    unfold Rect.contains Rect.right Rect.bottom Rect.left Rect.top Rect.ofLTLW Vec.ofXY Size.ofLW
    simp [e, e2]

/-! ## Equality -/

theorem fabs_fin_zero_lt : fabs (fin 0) < (EPSILON : Ieee) := by
  have z := (Sim.num (n := 0) 0 (by norm_num) (by norm_num))
  have e : fabs (fin 0) = fin 0 := if_neg (by rw [z.eq]; change ¬ (0 : ℝ) < (num 0 : FP double).val; rw [show (num 0 : FP double).val = 0 from fp_zero]; exact lt_irrefl _)
  rw [e, EPSILON_sim.eq]
  exact fp_EPSILON.1

theorem fin_sub_self (x : ℝ) : (fin x - fin x : Ieee) = fin 0 := by
  change Ieee.ofReal (x + -x) = _
  rw [add_neg_cancel, Ieee.ofReal_of_le (n := 0) (by norm_num) (by simp), rne_zero]

theorem not_fabs_nan_lt (x : Ieee) : ¬ fabs nan < x := by
  have e : fabs nan = nan := if_neg (not_nan_lt _)
  rw [e]; exact not_nan_lt _

/-- **C130** `v == v` exactly if no coordinate is NaN. -/
theorem C130_eq_partial (v : Vec Ieee) : v.eq v = true ↔ ¬ v.HasNan := by
  obtain ⟨x, y, b⟩ := v
  unfold Vec.eq Vec.HasNan
  rw [Bool.and_eq_true, Ieee.beq_iff, Ieee.beq_iff]
  cases x <;> cases y <;> simp [same]

/-- **C130** `v.equals_weakly(v)` exactly if both coordinates are finite. -/
theorem C130_weak_partial (v : Vec Ieee) : v.equalsWeakly v = true ↔ (∃ x, v.x = fin x) ∧ ∃ y, v.y = fin y := by
  obtain ⟨x, y, b⟩ := v
  have key : ∀ x : Ieee, fabs (x - x) < (EPSILON : Ieee) ↔ ∃ r, x = fin r := by
    intro x
    cases x with
    | nan => simp [not_fabs_nan_lt]
    | inf s =>
      have : (inf s - inf s : Ieee) = nan := by cases s <;> rfl
      rw [this]; simp [not_fabs_nan_lt]
    | fin r => rw [fin_sub_self]; simp [fabs_fin_zero_lt]
  unfold Vec.equalsWeakly
  rw [Bool.and_eq_true, decide_eq_true_iff, decide_eq_true_iff, key, key]

/-- **C130** Refuted: a point that differs from itself, and a point equal to itself but not weakly. -/
theorem C130_refuted : (∃ v : Vec Ieee, v.eq v = false) ∧ ∃ v : Vec Ieee, v.eq v = true ∧ v.equalsWeakly v = false := by
  refine ⟨⟨Vec.ofXY nan (fin 0), ?_⟩, Vec.ofXY (inf false) (fin 0), ?_, ?_⟩
  · rw [← Bool.not_eq_true, C130_eq_partial]; simp [Vec.HasNan, Vec.ofXY]
  · rw [C130_eq_partial]; simp [Vec.HasNan, Vec.ofXY]
  · rw [← Bool.not_eq_true, C130_weak_partial]; simp [Vec.ofXY]

/-! ## Clamping -/

theorem Ieee.le_of_not_lt {a b : Ieee} (ha : a ≠ nan) (hb : b ≠ nan) (h : ¬ a < b) : b ≤ a := by
  match a, b with
  | nan, _ => exact absurd rfl ha
  | _, nan => exact absurd rfl hb
  | inf s, inf t => cases s <;> cases t <;> simp_all [LE.le, le, LT.lt, lt]
  | inf s, fin y => cases s <;> simp_all [LE.le, le, LT.lt, lt]
  | fin x, inf t => cases t <;> simp_all [LE.le, le, LT.lt, lt]
  | fin x, fin y => exact not_lt.mp (show ¬ x < y from h)

theorem Ieee.le_of_lt {a b : Ieee} (h : a < b) : a ≤ b := by
  match a, b with
  | nan, _ => exact absurd h (not_nan_lt _)
  | _, nan => exact absurd h (not_lt_nan _)
  | inf s, inf t => exact .inl h.1
  | inf s, fin y => exact h
  | fin x, inf t => exact h
  | fin x, fin y => exact (show x < y from h).le

theorem Ieee.le_refl' {a : Ieee} (h : a ≠ nan) : a ≤ a := by
  match a with
  | nan => exact absurd rfl h
  | inf s => cases s <;> simp [LE.le, le]
  | fin x => exact le_refl x

theorem Ieee.ne_nan_of_le {a b : Ieee} (h : a ≤ b) : a ≠ nan ∧ b ≠ nan := by
  constructor <;> rintro rfl
  · exact not_nan_le _ h
  · exact not_le_nan _ h

/-- **C131** `bound` and `min_max` give a number within the limits for every argument, NaN and infinities included. NaN becomes
the lower limit. -/
theorem C131_bound (low x high : Ieee) (h : low ≤ high) :
    low ≤ bound low x high ∧ bound low x high ≤ high ∧ low ≤ minMax low x high ∧ minMax low x high ≤ high ∧
    bound low nan high = low ∧ minMax low nan high = low := by
  obtain ⟨hl, hh⟩ := ne_nan_of_le h
  have key : low ≤ bound low x high ∧ bound low x high ≤ high := by
    unfold bound pyMin pyMax
    by_cases c : low < x
    · have hx : x ≠ nan := by rintro rfl; exact not_lt_nan _ c
      rw [if_pos c]
      by_cases c2 : high < x
      · rw [if_pos c2]; exact ⟨h, le_refl' hh⟩
      · rw [if_neg c2]; exact ⟨le_of_lt c, le_of_not_lt hh hx c2⟩
    · rw [if_neg c]
      by_cases c2 : high < low
      · rw [if_pos c2]; exact ⟨h, le_refl' hh⟩
      · rw [if_neg c2]; exact ⟨le_refl' hl, h⟩
  have hn : ¬ high < low := by
    intro c
    match low, high, h, c with
    | inf s, inf t, h, c => cases s <;> cases t <;> simp_all [LE.le, le, LT.lt, lt]
    | inf s, fin y, h, c => cases s <;> simp_all [LE.le, le, LT.lt, lt]
    | fin x, inf t, h, c => cases t <;> simp_all [LE.le, le, LT.lt, lt]
    | fin x, fin y, h, c => exact absurd (show x ≤ y from h) (not_le.mpr c)
    | nan, _, h, c => exact hl rfl
    | _, nan, h, c => exact hh rfl
  have h2 : bound low nan high = low := by
    unfold bound pyMin pyMax
    rw [if_neg (not_lt_nan _), if_neg hn]
  exact ⟨key.1, key.2, key.1, key.2, h2, h2⟩

/-- C131: `bound(0, NaN, inf)` is 0. -/
example : bound (fin 0) nan (inf false) = fin 0 := (C131_bound (fin 0) nan (inf false) rfl).2.2.2.2.1

/-! ## Angles -/

theorem normalDeg_nan : AngleDeg.normalDeg nan = nan := by
  unfold AngleDeg.normalDeg; simp

theorem degree_nan {a : AngleDeg Ieee} (h : a.deg = nan) : a.degree = nan := by
  unfold AngleDeg.degree AngleDeg.ofNum; rw [h]; exact normalDeg_nan

/-- **C132** An angle built from NaN is NaN, and so is everything computed from it; it is neither equal to, nor left or right of,
any angle (itself included), and it is within no range. -/
theorem C132_nan (a b c : AngleDeg Ieee) (h : a.deg = nan) (s : Ieee) :
    AngleDeg.ofNum nan = a ∧ (a.add b).deg = nan ∧ (b.add a).deg = nan ∧ (a.sub b).deg = nan ∧ (b.sub a).deg = nan ∧
    (a.mul s).deg = nan ∧ a.neg.deg = nan ∧ a.reverse.deg = nan ∧
    a.eq b = false ∧ b.eq a = false ∧ a.isLeftOf b = false ∧ b.isLeftOf a = false ∧ a.isRightOf b = false ∧
    b.isRightOf a = false ∧ a.isLeftEqualOf b = false ∧ b.isLeftEqualOf a = false ∧ a.isRightEqualOf b = false ∧
    b.isRightEqualOf a = false ∧ a.isWithin b c = false := by
  have hd := degree_nan h
  have e1 : ∀ b : AngleDeg Ieee, a.isLeftEqualOf b = false := by
    intro b; simp [AngleDeg.isLeftEqualOf, h]
  have e2 : ∀ b : AngleDeg Ieee, b.isLeftEqualOf a = false := by
    intro b; simp [AngleDeg.isLeftEqualOf, hd]
  have e3 : (-nan : Ieee) = nan := rfl
  refine ⟨?_, ?_, ?_, ?_, ?_, ?_, ?_, ?_, ?_, ?_, ?_, ?_, ?_, ?_, e1 b, e2 b, ?_, ?_, ?_⟩
  · cases a; simp only at h; rw [h]; unfold AngleDeg.ofNum; rw [normalDeg_nan]
  · simp [AngleDeg.add, AngleDeg.ofNum, h, normalDeg_nan]
  · simp [AngleDeg.add, AngleDeg.ofNum, hd, normalDeg_nan]
  · simp [AngleDeg.sub, AngleDeg.ofNum, h, normalDeg_nan]
  · simp [AngleDeg.sub, AngleDeg.ofNum, h, normalDeg_nan]
  · simp [AngleDeg.mul, AngleDeg.ofNum, h, normalDeg_nan]
  · simp [AngleDeg.neg, AngleDeg.ofNum, h, normalDeg_nan, e3]
  · simp [AngleDeg.reverse, h]
  · simp [AngleDeg.eq, AngleDeg.eqNum, h, not_fabs_nan_lt]
  · simp [AngleDeg.eq, AngleDeg.eqNum, hd, not_fabs_nan_lt]
  · simp [AngleDeg.isLeftOf, hd]
  · simp [AngleDeg.isLeftOf, hd]
  · simp [AngleDeg.isRightOf, hd]
  · simp [AngleDeg.isRightOf, hd]
  · simp [AngleDeg.isRightEqualOf, hd]
  · simp [AngleDeg.isRightEqualOf, hd]
  · simp [AngleDeg.isWithin, e1, e2]

/-- **C132** The angle built from any finite double is the one of the model without overflow; in particular it is a number from
−180 to 180. -/
theorem C132_finite (d : ℝ) :
    AngleDeg.normalDeg (fin d) = fin (AngleDeg.normalDeg (⟨d⟩ : FP double)).val ∧
    -180 ≤ (AngleDeg.normalDeg (⟨d⟩ : FP double)).val ∧ (AngleDeg.normalDeg (⟨d⟩ : FP double)).val ≤ 180 := by
  refine ⟨?_, C96_normal _ _⟩
  have n360 := Sim.num (n := 9) 360 (by norm_num) (by norm_num)
  have n180 := Sim.num (n := 9) 180 (by norm_num) (by norm_num)
  have e360 : (num 360 : FP double).val = 360 := by
    change rne ((360 : ℕ) : ℝ) = _
    rw [rne_of_isDouble (isDouble_nat (n := 360) (by norm_num))]; norm_num
  -- the first step gives a number up to 360
  have key : Sim 9 (if fin d < -(num 360) ∨ num 360 < fin d then PyMath.fmod (fin d) (num 360) else fin d)
      (if (⟨d⟩ : FP double) < -(num 360) ∨ num 360 < (⟨d⟩ : FP double) then PyMath.fmod (⟨d⟩ : FP double) (num 360) else ⟨d⟩) := by
    have c1 : (fin d < -(num 360 : Ieee)) ↔ (⟨d⟩ : FP double) < -(num 360) := by rw [n360.neg.eq]; exact Iff.rfl
    have c2 : ((num 360 : Ieee) < fin d) ↔ num 360 < (⟨d⟩ : FP double) := by rw [n360.eq]; exact Iff.rfl
    by_cases c : (⟨d⟩ : FP double) < -(num 360) ∨ num 360 < (⟨d⟩ : FP double)
    · rw [if_pos c, if_pos (by rw [c1, c2]; exact c), n360.eq]
      refine ⟨rfl, ?_⟩
      change |d - (num 360 : FP double).val * (rtrunc (d / (num 360 : FP double).val) : ℝ)| ≤ 2 ^ 9
      rw [e360]
      have := (rtrunc_bounds (d / 360)).2
      rw [show d - 360 * (rtrunc (d / 360) : ℝ) = -(360 * ((rtrunc (d / 360) : ℝ) - d / 360)) by ring, abs_neg, abs_mul]
      rw [abs_of_pos (show (0 : ℝ) < 360 by norm_num)]
      linarith
    · rw [if_neg c, if_neg (by rw [c1, c2]; exact c)]
      refine ⟨rfl, ?_⟩
      push Not at c
      have h1 : ¬ d < -(num 360 : FP double).val := fun k => absurd c.1 (not_not.mpr k)
      have h2 : ¬ (num 360 : FP double).val < d := fun k => absurd c.2 (not_not.mpr k)
      rw [e360] at h1 h2
      change |d| ≤ 2 ^ 9
      rw [abs_le]; constructor <;> linarith
  unfold AngleDeg.normalDeg
  generalize (if fin d < -(num 360) ∨ num 360 < fin d then PyMath.fmod (fin d) (num 360) else fin d) = x at key ⊢
  generalize (if (⟨d⟩ : FP double) < -(num 360) ∨ num 360 < (⟨d⟩ : FP double) then
    PyMath.fmod (⟨d⟩ : FP double) (num 360) else ⟨d⟩) = y at key ⊢
  have k2 := Sim.ite (key.lt n180.neg) (key.add n360 (by norm_num)) (key.mono (m := 9 + 1) (by norm_num))
  have k3 := Sim.ite ((n180.lt k2)) (k2.sub (n360.mono (m := 9 + 1) (by norm_num)) (by norm_num)) (k2.mono (m := 9 + 1 + 1) (by norm_num))
  exact k3.eq

/-- C132: `AngleDeg(NaN)` is not within −180..180. -/
example : (AngleDeg.ofNum nan).isWithin (AngleDeg.ofNum (fin (-180))) (AngleDeg.ofNum (fin 180)) = false :=
  (C132_nan (AngleDeg.ofNum nan) _ (AngleDeg.ofNum (fin 180)) normalDeg_nan nan).2.2.2.2.2.2.2.2.2.2.2.2.2.2.2.2.2.2

/-! ## No overflow for coordinates of bounded size -/

/-- **C128** Triangles with coordinates up to `2 ^ 510`: the signed area and containment are those of the model without
overflow. -/
theorem C128_triangle (n : ℕ) (hn : n ≤ 510) (a b c p : Vec (FP double)) (ha : a.Below n) (hb : b.Below n) (hc : c.Below n)
    (hp : p.Below n) :
    Tri.dsa a.ieee b.ieee c.ieee = (Tri.dsa a b c).ieee ∧
    Tri.triContains a.ieee b.ieee c.ieee p.ieee = Tri.triContains a b c p :=
  ⟨(ha.sim.dsa hb.sim hc.sim (by omega)).eq, ha.sim.triContains hb.sim hc.sim hp.sim (by omega)⟩

/-- C128 on a triangle of size `2 ^ 500`: its double area is the finite number `2 ^ 1000`. -/
example : Tri.dsa (Vec.ofXY (fin 0) (fin 0)) (Vec.ofXY (fin (2 ^ 500)) (fin 0)) (Vec.ofXY (fin 0) (fin (2 ^ 500))) =
    fin (2 ^ 500 * 2 ^ 500) := by
  have hb : |(2 : ℝ) ^ 500| ≤ 2 ^ 510 := by
    rw [abs_of_nonneg (by positivity)]; exact pow_le_pow_right₀ one_le_two (by norm_num)
  have h0 : |(0 : ℝ)| ≤ 2 ^ 510 := by simp
  have := (C128_triangle 510 le_rfl (Vec.ofXY ⟨0⟩ ⟨0⟩) (Vec.ofXY ⟨2 ^ 500⟩ ⟨0⟩) (Vec.ofXY ⟨0⟩ ⟨2 ^ 500⟩) (Vec.ofXY ⟨0⟩ ⟨0⟩)
    ⟨h0, h0⟩ ⟨hb, h0⟩ ⟨h0, hb⟩ ⟨h0, h0⟩).1
  refine this.trans ?_
  have g : ∀ m : ℤ, |m| ≤ 2 ^ 25 → Grid 500 (2 ^ 25) (m * 2 ^ 500) := fun m hm => ⟨m, hm, by
    rw [show ((2 : ℝ) ^ (500 : ℤ)) = 2 ^ 500 from zpow_natCast 2 500]⟩
  have g0 : Grid 500 (2 ^ 25) 0 := by simpa using g 0 (by norm_num)
  have g1 : Grid 500 (2 ^ 25) (2 ^ 500) := by simpa using g 1 (by norm_num)
  unfold FP.ieee
  rw [(fp_dsa_grid (k := 500) (by norm_num) ⟨g0, g0⟩ ⟨g1, g0⟩ ⟨g0, g1⟩).1]
  simp [area2, Vec.fpt, Vec.ofXY]

/-- **C128** Segments with coordinates up to `2 ^ 254`. -/
theorem C128_segment (n : ℕ) (hn : n ≤ 254) (s o : Seg (FP double)) (p : Vec (FP double)) (hs : s.origin.Below n)
    (hs' : s.terminal.Below n) (ho : o.origin.Below n) (ho' : o.terminal.Below n) (hp : p.Below n) :
    s.ieee.existIntersection o.ieee = s.existIntersection o ∧
    s.ieee.existIntersectionExceptEndpoint o.ieee = s.existIntersectionExceptEndpoint o ∧
    s.ieee.onSegment p.ieee = s.onSegment p := by
  have h1 : SSim n s.ieee s := ⟨hs.sim, hs'.sim⟩
  have h2 : SSim n o.ieee o := ⟨ho.sim, ho'.sim⟩
  exact ⟨h1.exist h2 (by omega), h1.except h2 (by omega), h1.onSegment hp.sim (by omega)⟩

/-- **C128** Distances and circles with numbers up to `2 ^ 510`, rectangles with numbers up to `2 ^ 1022`. -/
theorem C128_circle_rect (n : ℕ) :
    (n ≤ 510 → ∀ u v : Vec (FP double), u.Below n → v.Below n → u.ieee.dist2 v.ieee = (u.dist2 v).ieee) ∧
    (n ≤ 510 → ∀ (c : Circle (FP double)) (p : Vec (FP double)), c.center.Below n → |c.radius.val| ≤ 2 ^ n → p.Below n →
      c.ieee.contains p.ieee = c.contains p) ∧
    (n ≤ 1022 → ∀ (r : Rect (FP double)) (p : Vec (FP double)), r.topLeft.Below n → |r.size.length.val| ≤ 2 ^ n →
      |r.size.width.val| ≤ 2 ^ n → p.Below n → r.ieee.contains p.ieee = r.contains p) := by
  refine ⟨fun hn u v hu hv => (hu.sim.dist2 hv.sim (by omega)).eq, fun hn c p hc hr hp => ?_, fun hn r p ht hl hw hp => ?_⟩
  · have h1 := hc.sim.dist2 hp.sim (by omega)
    have h2 := (Sim.mk' hr).mul (Sim.mk' hr) (by omega)
    unfold Circle.contains
    exact decide_eq_decide.mpr (h1.lt h2)
  · have : RSim n r.ieee r := ⟨ht.sim, .mk' hl, .mk' hw⟩
    exact this.contains hp.sim (by omega)

/-- **C128** Polygons: containment for coordinates up to `2 ^ 122`, the area for coordinates up to `2 ^ 484` and up to `2 ^ 53`
vertices. -/
theorem C128_polygon (n : ℕ) (g : Poly (FP double)) (hg : ∀ v ∈ g.vertices, v.Below n) :
    (n ≤ 122 → ∀ (p : Vec (FP double)) (allow : Bool), p.Below n → g.ieee.contains p.ieee allow = g.contains p allow) ∧
    (n ≤ 484 → g.vertices.length ≤ 2 ^ 53 → g.ieee.doubleSignedArea = g.doubleSignedArea.ieee) :=
  ⟨fun hn p allow hp => poly_contains_ieee hn g hg p hp allow, fun hn hl => area_ieee (by omega) g hg hl⟩

/-- **C128** Gift wrapping for coordinates up to `2 ^ 510`. -/
theorem C128_hull (n : ℕ) (hn : n ≤ 510) (pts : List (Vec (FP double))) (h : ∀ v ∈ pts, v.Below n) :
    (wrapping (Obj.ofList (pts.map Vec.ieee))).vertices = (wrapping (Obj.ofList pts)).vertices.map Vec.ieee :=
  wrapping_ieee (by omega) pts h

theorem Grid.below {k : ℤ} {K : ℕ} (hk : k ≤ K) {x : ℝ} (h : Grid k (2 ^ 25) x) : |x| ≤ 2 ^ (25 + K) := by
  obtain ⟨m, hm, rfl⟩ := h
  rw [abs_mul, abs_of_pos (show (0 : ℝ) < (2 : ℝ) ^ k by positivity), pow_add]
  have h1 : |(m : ℝ)| ≤ 2 ^ 25 := by exact_mod_cast hm
  have h2 : (2 : ℝ) ^ k ≤ 2 ^ K := by
    rw [← zpow_natCast]; exact zpow_le_zpow_right₀ one_le_two hk
  exact mul_le_mul h1 h2 (by positivity) (by positivity)

theorem Vec.OnGrid.below {k : ℤ} {K : ℕ} (hk : k ≤ K) {v : Vec (FP double)} (h : v.OnGrid k) : v.Below (25 + K) :=
  ⟨h.1.below hk, h.2.below hk⟩

/-- **C128** So the results on a grid (C118, C122, C123) hold in double precision with overflow: `tri_contains` decides
membership in a triangle that is not degenerate, -/
theorem C128_triangle_exact (k : ℤ) (hk : -537 ≤ k) (hk' : k ≤ 485) (a b c p : Vec (FP double)) (ha : a.OnGrid k)
    (hb : b.OnGrid k) (hc : c.OnGrid k) (hp : p.OnGrid k) (h : cross (b.fpt - a.fpt) (c.fpt - a.fpt) ≠ 0) :
    Tri.triContains a.ieee b.ieee c.ieee p.ieee = true ↔ InTriangle a.fpt b.fpt c.fpt p.fpt := by
  have h' : k ≤ (485 : ℕ) := hk'
  rw [(C128_triangle 510 le_rfl a b c p (ha.below h') (hb.below h') (hc.below h') (hp.below h')).2]
  exact ((C118_contains k hk a b c p ha hb hc hp).1 h).1

/-- **C128** … `Polygon2D.contains` decides membership in the interior of a convex polygon, -/
theorem C128_polygon_exact (k : ℤ) (hk : -268 ≤ k) (hk' : k ≤ 97) (g : Poly (FP double)) (p : Vec (FP double))
    (hv : ∀ v ∈ g.vertices, v.OnGrid k) (hp : p.OnGrid k) (H : StrictConvex g.fpts) :
    g.ieee.contains p.ieee false = true ↔ p.fpt ∈ interior (convexHull ℝ {z | z ∈ g.fpts}) := by
  have h' : k ≤ (97 : ℕ) := hk'
  rw [(C128_polygon 122 g (fun v hm => (hv v hm).below h')).1 le_rfl p false (hp.below h')]
  exact (C122_convex k hk g p hv hp H).2

/-- **C128** … and gift wrapping finds the convex hull. -/
theorem C128_hull_exact (k : ℤ) (hk : -9 ≤ k) (hk' : k ≤ 485) (pts : List (Vec (FP double))) (h3 : 3 ≤ pts.length)
    (h : ∀ v ∈ pts, v.OnGrid k) (hn : NoThreeOnHull (pts.map Vec.fpt)) :
    ∃ vs : List (Vec (FP double)), (wrapping (Obj.ofList (pts.map Vec.ieee))).vertices = vs.map Vec.ieee ∧
      (∀ v ∈ vs, v ∈ pts) ∧ StrictConvex (vs.map Vec.fpt) ∧
      convexHull ℝ {z | z ∈ vs.map Vec.fpt} = convexHull ℝ {z | z ∈ pts.map Vec.fpt} := by
  have h' : k ≤ (485 : ℕ) := hk'
  obtain ⟨q1, -, q2, q3⟩ := C123_wrapping k hk pts h3 h hn (fun _ l => l) _ rfl
  exact ⟨_, C128_hull 510 le_rfl pts (fun v hv => (h v hv).below h'), q1, q2, q3⟩

/-! ## Overflow -/

theorem Ieee.ofReal_big {x : ℝ} (h : 2 ^ 1024 ≤ |x|) : Ieee.ofReal x = inf (decide (x < 0)) := by
  refine if_neg ?_
  have h1 := rne_mono h
  rw [rne_of_isDouble (x := 2 ^ 1024) ⟨1, 1024, by norm_num, by omega, by simp⟩, ← rne_abs] at h1
  intro h2
  have : maxDouble < 2 ^ 1024 := by
    have e : (2 : ℝ) ^ 1024 = 2 ^ 53 * (2 : ℝ) ^ (971 : ℤ) := by
      rw [show (2 : ℝ) ^ (971 : ℤ) = 2 ^ 971 from zpow_natCast 2 971, ← pow_add]
    rw [e]; unfold maxDouble
    exact mul_lt_mul_of_pos_right (by norm_num) (by positivity)
  exact absurd (h1.trans h2) (not_le.mpr this)

/-- **C133** Refuted: the point (1, 1)·2^598 is well inside the triangle (0, 0), (4, 0)·2^598, (0, 4)·2^598, all exact doubles on a
common grid, but `tri_contains` answers no: an infinity is subtracted from an infinity. -/
theorem C133_refuted : ∃ a b c p : Vec (FP double), a.OnGrid 598 ∧ b.OnGrid 598 ∧ c.OnGrid 598 ∧ p.OnGrid 598 ∧
    InTriangle a.fpt b.fpt c.fpt p.fpt ∧ Tri.triContains a.ieee b.ieee c.ieee p.ieee = false := by
  refine ⟨Vec.ofXY ⟨0⟩ ⟨0⟩, Vec.ofXY ⟨4 * 2 ^ 598⟩ ⟨0⟩, Vec.ofXY ⟨0⟩ ⟨4 * 2 ^ 598⟩, Vec.ofXY ⟨2 ^ 598⟩ ⟨2 ^ 598⟩,
    ⟨⟨0, by norm_num, by simp [Vec.ofXY]⟩, 0, by norm_num, by simp [Vec.ofXY]⟩,
    ⟨⟨4, by norm_num, by simp [Vec.ofXY]⟩, 0, by norm_num, by simp [Vec.ofXY]⟩,
    ⟨⟨0, by norm_num, by simp [Vec.ofXY]⟩, 4, by norm_num, by simp [Vec.ofXY]⟩,
    ⟨⟨1, by norm_num, by simp [Vec.ofXY]⟩, 1, by norm_num, by simp [Vec.ofXY]⟩, ?_, ?_⟩
  · exact ⟨1 / 2, 1 / 4, 1 / 4, by norm_num, by norm_num, by norm_num, by norm_num, by
      ext <;> simp [Vec.fpt, Vec.ofXY]⟩
  · have q1 : (0 : ℝ) < 2 ^ 598 := by positivity
    have q2 : (2 : ℝ) ^ 600 = 4 * 2 ^ 598 := by rw [show (600 : ℕ) = 2 + 598 from rfl, pow_add]; norm_num
    have q3 : (2 : ℝ) ^ 1024 ≤ 2 ^ 598 * 2 ^ 598 := by
      rw [← pow_add]; exact pow_le_pow_right₀ one_le_two (by norm_num)
    have q4 : ((2 : ℝ) ^ (598 : ℤ)) = 2 ^ 598 := zpow_natCast 2 598
    generalize (2 : ℝ) ^ 598 = T at *
    have b1 : T ≤ 2 ^ 600 := by rw [q2]; exact le_mul_of_one_le_left q1.le (by norm_num)
    have b2 : 3 * T ≤ 2 ^ 600 := by rw [q2]; exact mul_le_mul_of_nonneg_right (by norm_num) q1.le
    have b3 : 0 < 3 * T := by positivity
    have b4 : T ≤ 3 * T := le_mul_of_one_le_left q1.le (by norm_num)
    have e1 : (fin 0 - fin T : Ieee) = fin (-T) := by
      change Ieee.ofReal (0 + -T) = _
      rw [Ieee.ofReal_of_le (n := 600) (by norm_num) (by rw [zero_add, abs_neg, abs_of_pos q1]; exact b1),
        rne_of_isDouble ⟨-1, 598, by norm_num, by norm_num, by rw [q4]; push_cast; ring⟩, zero_add]
    have e2 : (fin (4 * T) - fin T : Ieee) = fin (3 * T) := by
      change Ieee.ofReal (4 * T + -T) = _
      have e : 4 * T + -T = 3 * T := by ring
      rw [e, Ieee.ofReal_of_le (n := 600) (by norm_num) (by rw [abs_of_pos b3]; exact b2),
        rne_of_isDouble ⟨3, 598, by norm_num, by norm_num, by rw [q4]; push_cast; ring⟩]
    have m1 : (fin (3 * T) * fin (3 * T) : Ieee) = inf false := by
      change Ieee.ofReal (3 * T * (3 * T)) = _
      have h0 : 0 < 3 * T * (3 * T) := by positivity
      rw [Ieee.ofReal_big (by rw [abs_of_pos h0]; exact q3.trans (mul_self_le_mul_self q1.le b4)),
        decide_eq_false (not_lt.mpr h0.le)]
    have m2 : (fin (-T) * fin (-T) : Ieee) = inf false := by
      change Ieee.ofReal (-T * -T) = _
      have h0 : 0 < -T * -T := by rw [neg_mul_neg]; positivity
      rw [Ieee.ofReal_big (by rw [abs_of_pos h0, neg_mul_neg]; exact q3), decide_eq_false (not_lt.mpr h0.le)]
    have m3 : (inf false - inf false : Ieee) = nan := rfl
    simp only [Tri.triContains, Vec.outerProduct, Vec.sub, Vec.ofVec, Vec.ofXY, Vec.ieee, FP.ieee, e1, e2, m1, m2, m3]
    simp

/-- **C133** With coordinates up to `2 ^ 510` the answer is right (on a grid). -/
theorem C133_partial (k : ℤ) (hk : -537 ≤ k) (hk' : k ≤ 485) (a b c p : Vec (FP double)) (ha : a.OnGrid k)
    (hb : b.OnGrid k) (hc : c.OnGrid k) (hp : p.OnGrid k) (h : InTriangle a.fpt b.fpt c.fpt p.fpt) :
    Tri.triContains a.ieee b.ieee c.ieee p.ieee = true := by
  have h' : k ≤ (485 : ℕ) := hk'
  rw [(C128_triangle 510 le_rfl a b c p (ha.below h') (hb.below h') (hc.below h') (hp.below h')).2]
  exact ((C118_contains k hk a b c p ha hb hc hp).2 h).1

end PyrusGeom
