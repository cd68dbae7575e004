import Verif.Model.Circle
import Verif.Model.Polygon
import Verif.Model.SoccerMath
import Verif.Model.Wrappers
import Verif.Props.Ieee

/-!
# Property C175: mirror images

Changing the sign of all x coordinates, of all y coordinates, or of both, changes the results in the same way: exactly, in exact
arithmetic, for every odd rounding, and with overflow, infinities and NaN. Only the laws of `OddNum` are used.
-/

namespace PyrusGeom

section
variable (K : Type) [Add K] [Sub K] [Mul K] [Div K] [Neg K] [NatCast K] [LT K] [LE K]
  [DecidableLT K] [DecidableLE K] [BEq K] [PyMath K]

/-- What the proofs use of the arithmetic: it treats a number and its negative alike. -/
class OddNum : Prop where
  neg_neg : ∀ a : K, -(-a) = a
  neg_zero : -(num 0 : K) = num 0
  neg_add : ∀ a b : K, -a + -b = -(a + b)
  neg_sub : ∀ a b : K, -a - -b = -(a - b)
  sub_neg : ∀ a b : K, a - -b = a + b
  sub_swap : ∀ a b : K, a - b = -(b - a)
  neg_mul : ∀ a b : K, -a * b = -(a * b)
  mul_neg : ∀ a b : K, a * -b = -(a * b)
  neg_div : ∀ a b : K, -a / b = -(a / b)
  div_neg : ∀ a b : K, (b == num 0) = false → a / -b = -(a / b)
  neg_lt : ∀ a b : K, -a < -b ↔ b < a
  neg_le : ∀ a b : K, -a ≤ -b ↔ b ≤ a
  neg_beq : ∀ a b : K, (-a == -b) = (a == b)
  fabs_neg : ∀ a : K, fabs (-a) = fabs a
  zero_small : ∀ a : K, (a == num 0) = true → fabs a < (EPSILON : K)
  zero_tiny : ∀ a : K, (a == num 0) = true → fabs a < (num 1 / num 10000000000 : K)
  zero_short : ∀ a : K, (a == num 0) = true → a < (EPSILON : K)
end

noncomputable instance : OddNum ℝ where
  neg_neg := neg_neg
  neg_zero := by simp
  neg_add a b := by ring
  neg_sub a b := by ring
  sub_neg a b := by ring
  sub_swap a b := by ring
  neg_mul a b := by ring
  mul_neg a b := by ring
  neg_div a b := by ring
  div_neg a b _ := by rw [div_neg]
  neg_lt a b := neg_lt_neg_iff
  neg_le a b := neg_le_neg_iff
  neg_beq a b := by simp [BEq.beq]
  fabs_neg a := by rw [fabs_real, fabs_real, abs_neg]
  zero_small a h := by
    have : a = 0 := by simpa using h
    rw [this, fabs_real, abs_zero]; exact EPSILON_pos
  zero_tiny a h := by
    have : a = 0 := by simpa using h
    rw [this, fabs_real, abs_zero]; norm_num
  zero_short a h := by
    have : a = 0 := by simpa using h
    rw [this]; exact EPSILON_pos

theorem oddNum_fp {ρ : Rounding} (h1 : 0 < (EPSILON : FP ρ).val) (h2 : 0 < (num 1 / num 10000000000 : FP ρ).val) :
    OddNum (FP ρ) := by
  have h0 : (num 0 : FP ρ).val = 0 := by simpa using ρ.int 0 (by norm_num)
  have z : ∀ a : FP ρ, (a == num 0) = true → a.val = 0 := fun a h => by
    have : a.val = (num 0 : FP ρ).val := by simpa [BEq.beq] using h
    rw [this, h0]
  have fz : ∀ a : FP ρ, a.val = 0 → (fabs a).val = 0 := fun a h => by
    rw [show (fabs a).val = if a.val < (num 0 : FP ρ).val then -a.val else a.val by unfold fabs; split <;> simp_all [FP.lt_def], h0, h]
    simp
  refine ⟨fun a => ?_, ?_, fun a b => ?_, fun a b => ?_, fun a b => ?_, fun a b => ?_, fun a b => ?_, fun a b => ?_, fun a b => ?_, fun a b _ => ?_, fun a b => ?_,
    fun a b => ?_, fun a b => ?_, fun a => ?_, fun a h => ?_, fun a h => ?_, fun a h => ?_⟩
  · ext; simp
  · ext; rw [FP.neg_val, h0, neg_zero]
  · ext; simp only [FP.add_val, FP.neg_val, ← ρ.odd]; ring_nf
  · ext; simp only [FP.sub_val, FP.neg_val, ← ρ.odd]; ring_nf
  · ext; simp only [FP.sub_val, FP.add_val, FP.neg_val, sub_neg_eq_add]
  · ext; simp only [FP.sub_val, FP.neg_val, ← ρ.odd]; ring_nf
  · ext; simp only [FP.mul_val, FP.neg_val, ← ρ.odd]; ring_nf
  · ext; simp only [FP.mul_val, FP.neg_val, ← ρ.odd]; ring_nf
  · ext; simp only [FP.div_val, FP.neg_val, ← ρ.odd, neg_div]
  · ext; simp only [FP.div_val, FP.neg_val, ← ρ.odd, div_neg]
  · simp [FP.lt_def]
  · simp [FP.le_def]
  · simp [BEq.beq]
  · unfold fabs
    rcases lt_trichotomy a.val 0 with h | h | h
    · rw [if_neg (by rw [FP.lt_def, h0, FP.neg_val]; linarith), if_pos (by rw [FP.lt_def, h0]; exact h)]
    · rw [if_neg (by rw [FP.lt_def, h0, FP.neg_val]; linarith), if_neg (by rw [FP.lt_def, h0]; linarith)]
      ext; rw [FP.neg_val, h, neg_zero]
    · rw [if_pos (by rw [FP.lt_def, h0, FP.neg_val]; linarith), if_neg (by rw [FP.lt_def, h0]; linarith)]
      ext; simp
  · rw [FP.lt_def, fz a (z a h)]; exact h1
  · rw [FP.lt_def, fz a (z a h)]; exact h2
  · rw [FP.lt_def, z a h]; exact h1

theorem fp_tiny : 0 < (num 1 / num 10000000000 : FP double).val ∧ (num 1 / num 10000000000 : FP double).val ≤ 1 := by
  have e : (num 1 / num 10000000000 : FP double).val = rne (1 / 10000000000) := by
    change rne (rne ((1 : ℕ) : ℝ) / rne ((10000000000 : ℕ) : ℝ)) = _
    rw [rne_of_isDouble (isDouble_nat (n := 1) (by norm_num)), rne_of_isDouble (isDouble_nat (n := 10000000000) (by norm_num))]
    norm_num
  rw [e]
  constructor
  · have := rne_mono (show (2 : ℝ) ^ (-34 : ℤ) ≤ 1 / 10000000000 by norm_num)
    rw [rne_of_isDouble (isDouble_pow (-34) (by norm_num))] at this
    exact lt_of_lt_of_le (by positivity) this
  · have := rne_mono (show (1 / 10000000000 : ℝ) ≤ ((1 : ℕ) : ℝ) by norm_num)
    rw [rne_of_isDouble (isDouble_nat (n := 1) (by norm_num))] at this
    simpa using this

instance : OddNum (FP double) := oddNum_fp fp_EPSILON.1 fp_tiny.1

theorem Ieee.ofReal_neg (x : ℝ) : Ieee.ofReal (-x) = -Ieee.ofReal x := by
  change _ = Ieee.neg _
  unfold Ieee.ofReal
  rw [rne_neg, abs_neg]
  by_cases h : |rne x| ≤ maxDouble
  · rw [if_pos h, if_pos h]; rfl
  · rw [if_neg h, if_neg h]
    have : x ≠ 0 := by
      rintro rfl
      apply h
      rw [rne_zero, abs_zero]; unfold maxDouble; positivity
    rcases lt_or_gt_of_ne this with hx | hx
    · simp [Ieee.neg, hx, hx.le, not_lt]
    · simp [Ieee.neg, hx, hx.le, not_lt]

open Ieee in
theorem ieee_num0 : (num 0 : Ieee) = fin 0 := by
  rw [(Sim.num (n := 0) 0 (by norm_num) (by norm_num)).eq, show (num 0 : FP double).val = 0 from fp_zero]

open Ieee in
theorem ieee_tiny : (num 1 / num 10000000000 : Ieee) = fin (num 1 / num 10000000000 : FP double).val := by
  have h1 := Sim.num (n := 0) 1 (by norm_num) (by norm_num)
  have h2 := Sim.num (n := 34) 10000000000 (by norm_num) (by norm_num)
  have e1 : (num 1 : FP double).val = 1 := by
    change rne ((1 : ℕ) : ℝ) = 1
    rw [rne_of_isDouble (isDouble_nat (n := 1) (by norm_num))]; simp
  have e2 : (num 10000000000 : FP double).val = 10000000000 := by
    change rne ((10000000000 : ℕ) : ℝ) = 10000000000
    rw [rne_of_isDouble (isDouble_nat (n := 10000000000) (by norm_num))]; simp
  rw [h1.eq, h2.eq]
  change Ieee.ofReal ((num 1 : FP double).val / (num 10000000000 : FP double).val) = _
  rw [Ieee.ofReal_of_le (n := 0) (by norm_num) (by rw [e1, e2]; norm_num [abs_of_pos])]
  rfl

open Ieee Classical in
instance : OddNum Ieee := by
  have ng : ∀ a : Ieee, -a = Ieee.neg a := fun _ => rfl
  have z : ∀ a : Ieee, (a == num 0) = true → a = fin 0 := by
    intro a h
    rw [ieee_num0, Ieee.beq_iff] at h
    cases a <;> simp_all [Ieee.same]
  have fz : fabs (fin 0) = (fin 0 : Ieee) := if_neg (by rw [ieee_num0]; exact lt_irrefl (0 : ℝ))
  refine ⟨fun a => ?_, ?_, fun a b => ?_, fun a b => ?_, fun a b => ?_, fun a b => ?_, fun a b => ?_, fun a b => ?_, fun a b => ?_, fun a b hb => ?_, fun a b => ?_,
    fun a b => ?_, fun a b => ?_, fun a => ?_, fun a h => ?_, fun a h => ?_, fun a h => ?_⟩
  · cases a <;> simp [ng, Ieee.neg]
  · rw [ieee_num0, ng]; simp [Ieee.neg]
  · change Ieee.add (Ieee.neg a) (Ieee.neg b) = Ieee.neg (Ieee.add a b)
    rcases a with _ | s | x <;> rcases b with _ | t | y <;> simp only [Ieee.neg, Ieee.add]
    · cases s <;> cases t <;> simp
    · exact (congrArg Ieee.ofReal (by ring)).trans (Ieee.ofReal_neg (x + y))
  · change Ieee.add (Ieee.neg a) (Ieee.neg (Ieee.neg b)) = Ieee.neg (Ieee.add a (Ieee.neg b))
    rcases a with _ | s | x <;> rcases b with _ | t | y <;> simp only [Ieee.neg, Ieee.add]
    · cases s <;> cases t <;> simp
    · exact (congrArg Ieee.ofReal (by ring)).trans (Ieee.ofReal_neg (x + -y))
  · change Ieee.add a (Ieee.neg (Ieee.neg b)) = Ieee.add a b
    rcases b with _ | t | y <;> simp [Ieee.neg]
  · change Ieee.add a (Ieee.neg b) = Ieee.neg (Ieee.add b (Ieee.neg a))
    rcases a with _ | s | x <;> rcases b with _ | t | y <;> simp only [Ieee.neg, Ieee.add]
    · cases s <;> cases t <;> simp
    · cases s <;> rfl
    · exact (congrArg Ieee.ofReal (by ring)).trans (Ieee.ofReal_neg (y + -x))
  · change Ieee.mul (Ieee.neg a) b = Ieee.neg (Ieee.mul a b)
    rcases a with _ | s | x <;> rcases b with _ | t | y <;> simp only [Ieee.neg, Ieee.mul]
    · cases s <;> cases t <;> simp
    · by_cases h : y = 0
      · simp [h]
      · cases s <;> simp [h]
    · by_cases h : x = 0
      · simp [h]
      · rcases lt_or_gt_of_ne h with h' | h' <;> cases t <;> simp [h, h', h'.le, not_lt]
    · exact (congrArg Ieee.ofReal (by ring)).trans (Ieee.ofReal_neg (x * y))
  · change Ieee.mul a (Ieee.neg b) = Ieee.neg (Ieee.mul a b)
    rcases a with _ | s | x <;> rcases b with _ | t | y <;> simp only [Ieee.neg, Ieee.mul]
    · cases s <;> cases t <;> simp
    · by_cases h : y = 0
      · simp [h]
      · rcases lt_or_gt_of_ne h with h' | h' <;> cases s <;> simp [h, h', h'.le, not_lt]
    · by_cases h : x = 0
      · simp [h]
      · cases t <;> simp [h]
    · exact (congrArg Ieee.ofReal (by ring)).trans (Ieee.ofReal_neg (x * y))
  · change Ieee.div (Ieee.neg a) b = Ieee.neg (Ieee.div a b)
    rcases a with _ | s | x <;> rcases b with _ | t | y <;> simp only [Ieee.neg, Ieee.div]
    · cases s <;> simp
    · simp
    · exact (congrArg Ieee.ofReal (by ring)).trans (Ieee.ofReal_neg (x / y))
  · change Ieee.div a (Ieee.neg b) = Ieee.neg (Ieee.div a b)
    rcases a with _ | s | x <;> rcases b with _ | t | y <;> simp only [Ieee.neg, Ieee.div]
    · have h : y ≠ 0 := by
        rintro rfl
        rw [ieee_num0, ← Bool.not_eq_true, Ieee.beq_iff] at hb
        exact hb rfl
      rcases lt_or_gt_of_ne h with h' | h' <;> cases s <;> simp [h', h'.le, not_lt]
    · simp
    · exact (congrArg Ieee.ofReal (by ring)).trans (Ieee.ofReal_neg (x / y))
  · change Ieee.lt (Ieee.neg a) (Ieee.neg b) ↔ Ieee.lt b a
    rcases a with _ | s | x <;> rcases b with _ | t | y <;> simp [Ieee.neg, Ieee.lt, and_comm]
  · change Ieee.le (Ieee.neg a) (Ieee.neg b) ↔ Ieee.le b a
    rcases a with _ | s | x <;> rcases b with _ | t | y <;> simp [Ieee.neg, Ieee.le, or_comm]
  · rw [Bool.eq_iff_iff, Ieee.beq_iff, Ieee.beq_iff]
    change Ieee.same (Ieee.neg a) (Ieee.neg b) ↔ Ieee.same a b
    rcases a with _ | s | x <;> rcases b with _ | t | y <;> simp [Ieee.neg, Ieee.same]
  · unfold fabs
    rw [ieee_num0, ng]
    change (if Ieee.lt (Ieee.neg a) (fin 0) then Ieee.neg (Ieee.neg a) else Ieee.neg a) = if Ieee.lt a (fin 0) then Ieee.neg a else a
    rcases a with _ | s | x
    · simp [Ieee.neg, Ieee.lt]
    · cases s <;> simp [Ieee.neg, Ieee.lt]
    · rcases lt_trichotomy x 0 with h | h | h
      · simp [Ieee.neg, Ieee.lt, h, h.le, not_lt]
      · simp [Ieee.neg, Ieee.lt, h]
      · simp [Ieee.neg, Ieee.lt, h, not_lt_of_ge h.le]
  · rw [z a h]; exact fabs_fin_zero_lt
  · rw [z a h, fz, ieee_tiny]; exact fp_tiny.1
  · rw [z a h, ← fz]; exact fabs_fin_zero_lt

/-! ## Signs -/

section
variable {K : Type} [Add K] [Sub K] [Mul K] [Div K] [Neg K] [NatCast K] [LT K] [LE K]
  [DecidableLT K] [DecidableLE K] [BEq K] [PyMath K]

/-- `-a` or `a`. -/
def sg (s : Bool) (a : K) : K := if s then -a else a

/-- The mirror image of a point: `s` changes the sign of x, `t` that of y. -/
def Vec.flip (s t : Bool) (v : Vec K) : Vec K := ⟨sg s v.x, sg t v.y, v.valid⟩

/-- The mirror image of a line; all three coefficients are multiplied by -1 if `u` is true, which is the same line. -/
def Line.flip (s t u : Bool) (l : Line K) : Line K := ⟨sg (s ^^ u) l.a, sg (t ^^ u) l.b, sg u l.c⟩

def Seg.flip (s t : Bool) (e : Seg K) : Seg K := ⟨e.origin.flip s t, e.terminal.flip s t⟩
def Tri.flip (s t : Bool) (d : Tri K) : Tri K := ⟨d.a.flip s t, d.b.flip s t, d.c.flip s t⟩
def Circle.flip (s t : Bool) (c : Circle K) : Circle K := ⟨c.center.flip s t, c.radius⟩
def Poly.flip (s t : Bool) (p : Poly K) : Poly K := ⟨p.vertices.map (Vec.flip s t)⟩

variable [OddNum K]

theorem sg_neg (s : Bool) (a : K) : -(sg s a) = sg s (-a) := by cases s <;> rfl
theorem sg_add (s : Bool) (a b : K) : sg s a + sg s b = sg s (a + b) := by cases s <;> simp [sg, OddNum.neg_add]
theorem sg_sub (s : Bool) (a b : K) : sg s a - sg s b = sg s (a - b) := by cases s <;> simp [sg, OddNum.neg_sub]
theorem sg_mul (s t : Bool) (a b : K) : sg s a * sg t b = sg (s ^^ t) (a * b) := by
  cases s <;> cases t <;> simp [sg, OddNum.neg_mul, OddNum.mul_neg, OddNum.neg_neg]
theorem sg_mul_left (s : Bool) (a b : K) : sg s a * b = sg s (a * b) := by cases s <;> simp [sg, OddNum.neg_mul]
theorem sg_mul_right (s : Bool) (a b : K) : a * sg s b = sg s (a * b) := by cases s <;> simp [sg, OddNum.mul_neg]
theorem sg_div_left (s : Bool) (a b : K) : sg s a / b = sg s (a / b) := by cases s <;> simp [sg, OddNum.neg_div]
theorem sg_div (s t : Bool) (a b : K) (h : (b == num 0) = false) : sg s a / sg t b = sg (s ^^ t) (a / b) := by
  cases s <;> cases t <;> simp [sg, OddNum.neg_div, OddNum.div_neg _ _ h, OddNum.neg_neg]
theorem sg_false (a : K) : sg false a = a := rfl
theorem sg_sg (s t : Bool) (a : K) : sg s (sg t a) = sg (s ^^ t) a := by cases s <;> cases t <;> simp [sg, OddNum.neg_neg]
theorem sg_zero (s : Bool) : sg s (num 0 : K) = num 0 := by cases s <;> simp only [sg, OddNum.neg_zero, if_true, if_false, Bool.false_eq_true]
theorem fabs_sg (s : Bool) (a : K) : fabs (sg s a) = fabs a := by cases s <;> simp [sg, OddNum.fabs_neg]
theorem sg_beq (s : Bool) (a b : K) : (sg s a == sg s b) = (a == b) := by cases s <;> simp [sg, OddNum.neg_beq]
theorem sg_beq_zero (s : Bool) (a : K) : (sg s a == num 0) = (a == num 0) := by
  conv_lhs => rw [← sg_zero (K := K) s]
  exact sg_beq s a _
theorem sq_sg (s : Bool) (a : K) : sq (sg s a) = sq a := by unfold sq; rw [sg_mul, Bool.xor_self, sg_false]

theorem pyDiv_sg (s : Bool) (a b : K) : pyDiv (sg s a) b = (pyDiv a b).map (sg s) := by
  unfold pyDiv; split
  · rfl
  · rw [sg_div_left]; rfl

theorem Vec.invalid_flip (s t : Bool) : (Vec.invalid : Vec K).flip s t = Vec.invalid := by
  simp [Vec.flip, Vec.invalid, Vec.invalidate, Vec.zero, sg_zero]

/-! ## Vectors -/

/-- **C175** Sums, differences, multiples, products, lengths, distances, comparisons and scaling of mirrored vectors. -/
theorem C175_vector (s t : Bool) (v w : Vec K) (k : K) :
    (v.flip s t).add (w.flip s t) = (v.add w).flip s t ∧ (v.flip s t).sub (w.flip s t) = (v.sub w).flip s t ∧
    (v.flip s t).mul k = (v.mul k).flip s t ∧ (v.flip s t).iadd (w.flip s t) = (v.iadd w).flip s t ∧
    (v.flip s t).isub (w.flip s t) = (v.isub w).flip s t ∧ (v.flip s t).imul k = (v.imul k).flip s t ∧
    (v.flip s t).truediv k = (v.truediv k).map (Vec.flip s t) ∧
    (v.flip s t).r2 = v.r2 ∧ (v.flip s t).r = v.r ∧
    (v.flip s t).dist2 (w.flip s t) = v.dist2 w ∧ (v.flip s t).dist (w.flip s t) = v.dist w ∧
    (v.flip s t).innerProduct (w.flip s t) = v.innerProduct w ∧
    (v.flip s t).outerProduct (w.flip s t) = sg (s ^^ t) (v.outerProduct w) ∧
    (v.flip s t).eq (w.flip s t) = v.eq w ∧ (v.flip s t).equalsWeakly (w.flip s t) = v.equalsWeakly w ∧
    (v.flip s t).setLength k = (v.setLength k).flip s t ∧ (v.flip s t).normalize = v.normalize.flip s t := by
  have r2 : (v.flip s t).r2 = v.r2 := by simp only [Vec.r2, Vec.flip, sg_mul, Bool.xor_self, sg_false]
  have r : (v.flip s t).r = v.r := by unfold Vec.r; rw [r2]
  have d2 : (v.flip s t).dist2 (w.flip s t) = v.dist2 w := by simp only [Vec.dist2, Vec.flip, sg_sub, sq_sg]
  have sl : ∀ k : K, (v.flip s t).setLength k = (v.setLength k).flip s t := fun k => by
    unfold Vec.setLength
    rw [r]
    by_cases h : EPSILON < v.r
    · simp only [h, if_true, Vec.scale, Vec.flip, sg_mul_left]
    · simp only [h, if_false]
  refine ⟨?_, ?_, ?_, ?_, ?_, ?_, ?_, r2, r, d2, ?_, ?_, ?_, ?_, ?_, sl k, sl _⟩
  · simp only [Vec.add, Vec.ofXY, Vec.flip, sg_add]
  · simp only [Vec.sub, Vec.ofXY, Vec.flip, sg_sub]
  · simp only [Vec.mul, Vec.ofXY, Vec.flip, sg_mul_left]
  · simp only [Vec.iadd, Vec.flip, sg_add]
  · simp only [Vec.isub, Vec.flip, sg_sub]
  · simp only [Vec.imul, Vec.flip, sg_mul_left]
  · simp only [Vec.truediv, Vec.flip, pyDiv_sg]
    unfold pyDiv
    split <;> rfl
  · unfold Vec.dist; rw [d2]
  · simp only [Vec.innerProduct, Vec.flip, sg_mul, Bool.xor_self, sg_false]
  · simp only [Vec.outerProduct, Vec.flip, sg_mul, Bool.xor_comm t s, sg_sub]
  · simp only [Vec.eq, Vec.flip, sg_beq]
  · simp only [Vec.equalsWeakly, Vec.flip, sg_sub, fabs_sg]

theorem flip_sub (s t : Bool) (v w : Vec K) : (v.flip s t).sub (w.flip s t) = (v.sub w).flip s t := (C175_vector s t v w (num 0)).2.1
theorem flip_add (s t : Bool) (v w : Vec K) : (v.flip s t).add (w.flip s t) = (v.add w).flip s t := (C175_vector s t v w (num 0)).1
theorem flip_r2 (s t : Bool) (v : Vec K) : (v.flip s t).r2 = v.r2 := (C175_vector s t v v (num 0)).2.2.2.2.2.2.2.1
theorem flip_r (s t : Bool) (v : Vec K) : (v.flip s t).r = v.r := (C175_vector s t v v (num 0)).2.2.2.2.2.2.2.2.1
theorem flip_dist2 (s t : Bool) (v w : Vec K) : (v.flip s t).dist2 (w.flip s t) = v.dist2 w :=
  (C175_vector s t v w (num 0)).2.2.2.2.2.2.2.2.2.1
theorem flip_dist (s t : Bool) (v w : Vec K) : (v.flip s t).dist (w.flip s t) = v.dist w :=
  (C175_vector s t v w (num 0)).2.2.2.2.2.2.2.2.2.2.1
theorem flip_inner (s t : Bool) (v w : Vec K) : (v.flip s t).innerProduct (w.flip s t) = v.innerProduct w :=
  (C175_vector s t v w (num 0)).2.2.2.2.2.2.2.2.2.2.2.1
theorem flip_outer (s t : Bool) (v w : Vec K) : (v.flip s t).outerProduct (w.flip s t) = sg (s ^^ t) (v.outerProduct w) :=
  (C175_vector s t v w (num 0)).2.2.2.2.2.2.2.2.2.2.2.2.1
theorem flip_eq (s t : Bool) (v w : Vec K) : (v.flip s t).eq (w.flip s t) = v.eq w :=
  (C175_vector s t v w (num 0)).2.2.2.2.2.2.2.2.2.2.2.2.2.1
theorem flip_weakly (s t : Bool) (v w : Vec K) : (v.flip s t).equalsWeakly (w.flip s t) = v.equalsWeakly w :=
  (C175_vector s t v w (num 0)).2.2.2.2.2.2.2.2.2.2.2.2.2.2.1

/-! ## Lines -/

theorem flip_intersection (s t u u' : Bool) (l m : Line K) :
    (l.flip s t u).intersection (m.flip s t u') = (l.intersection m).flip s t := by
  have e : (l.flip s t u).a * (m.flip s t u').b - (l.flip s t u).b * (m.flip s t u').a =
      sg (s ^^ t ^^ u ^^ u') (l.a * m.b - l.b * m.a) := by
    simp only [Line.flip, sg_mul]
    rw [show ((s ^^ u) ^^ (t ^^ u')) = (s ^^ t ^^ u ^^ u') by cases s <;> cases t <;> cases u <;> cases u' <;> rfl,
      show ((t ^^ u) ^^ (s ^^ u')) = (s ^^ t ^^ u ^^ u') by cases s <;> cases t <;> cases u <;> cases u' <;> rfl, sg_sub]
  unfold Line.intersection
  simp only [e, fabs_sg]
  by_cases h : fabs (l.a * m.b - l.b * m.a) < EPSILON
  · simp only [h, if_true, Vec.invalid_flip]
  · simp only [h, if_false]
    have h0 : ((l.a * m.b - l.b * m.a) == num 0) = false := by
      rw [← Bool.not_eq_true]; exact fun h' => h (OddNum.zero_small _ h')
    simp only [Line.flip, Vec.ofXY, Vec.flip, sg_mul]
    rw [show ((t ^^ u) ^^ u') = (t ^^ u ^^ u') by cases t <;> cases u <;> cases u' <;> rfl,
      show ((t ^^ u') ^^ u) = (t ^^ u ^^ u') by cases t <;> cases u <;> cases u' <;> rfl,
      show ((s ^^ u') ^^ u) = (s ^^ u ^^ u') by cases s <;> cases u <;> cases u' <;> rfl,
      show ((s ^^ u) ^^ u') = (s ^^ u ^^ u') by cases s <;> cases u <;> cases u' <;> rfl, sg_sub, sg_sub, sg_div _ _ _ _ h0,
      sg_div _ _ _ _ h0,
      show ((t ^^ u ^^ u') ^^ (s ^^ t ^^ u ^^ u')) = s by cases s <;> cases t <;> cases u <;> cases u' <;> rfl,
      show ((s ^^ u ^^ u') ^^ (s ^^ t ^^ u ^^ u')) = t by cases s <;> cases t <;> cases u <;> cases u' <;> rfl]

theorem flip_perpendicular (s t u : Bool) (l : Line K) (p : Vec K) :
    (l.flip s t u).perpendicular (p.flip s t) = (l.perpendicular p).flip s t (s ^^ t ^^ u) := by
  simp only [Line.perpendicular, Line.flip, Vec.flip, sg_mul, sg_neg]
  rw [show ((s ^^ u) ^^ t) = (s ^^ t ^^ u) by cases s <;> cases t <;> cases u <;> rfl,
    show ((t ^^ u) ^^ s) = (s ^^ t ^^ u) by cases s <;> cases t <;> cases u <;> rfl, sg_sub,
    show (s ^^ (s ^^ t ^^ u)) = (t ^^ u) by cases s <;> cases t <;> cases u <;> rfl,
    show (t ^^ (s ^^ t ^^ u)) = (s ^^ u) by cases s <;> cases t <;> cases u <;> rfl]

theorem flip_ofPoints (s t : Bool) (p q : Vec K) :
    Line.ofPoints (p.flip s t) (q.flip s t) = (Line.ofPoints p q).flip s t (s ^^ t) := by
  simp only [Line.ofPoints, Line.flip, Vec.flip, sg_mul, sg_neg, sg_sub, Bool.xor_comm t s]
  rw [show (s ^^ (s ^^ t)) = t by cases s <;> cases t <;> rfl, show (t ^^ (s ^^ t)) = s by cases s <;> cases t <;> rfl]

theorem flip_perpBisector (s t : Bool) (p q : Vec K) (h : q.equalsWeakly p = false) :
    Line.perpendicularBisector (p.flip s t) (q.flip s t) = (Line.perpendicularBisector p q).flip s t false := by
  have h' : ¬ (fabs (q.x - p.x) < EPSILON ∧ fabs (q.y - p.y) < EPSILON) := by
    simpa [Vec.equalsWeakly] using h
  unfold Line.perpendicularBisector
  simp only [Vec.flip, sg_sub, fabs_sg, h', if_false, sg_mul, Bool.xor_self, sg_false, Line.flip, Bool.xor_false]

/-- **C175** Lines through mirrored points, their distances, intersections, perpendiculars and projections; `u` and `u'` say whether
the coefficients of the mirrored lines are multiplied by -1, so that the results do not depend on it. -/
theorem C175_line (s t u u' : Bool) (l m : Line K) (p q : Vec K) :
    Line.ofPoints (p.flip s t) (q.flip s t) = (Line.ofPoints p q).flip s t (s ^^ t) ∧
    (l.flip s t u).perpendicular (p.flip s t) = (l.perpendicular p).flip s t (s ^^ t ^^ u) ∧
    (l.flip s t u).isParallel (m.flip s t u') = l.isParallel m ∧
    (l.flip s t u).intersection (m.flip s t u') = (l.intersection m).flip s t ∧
    (l.flip s t u).projection (p.flip s t) = (l.projection p).flip s t ∧
    (l.flip s t u).dist (p.flip s t) = l.dist p ∧ (l.flip s t u).dist2 (p.flip s t) = l.dist2 p := by
  have h1 : (l.flip s t u).a * (p.flip s t).x + (l.flip s t u).b * (p.flip s t).y + (l.flip s t u).c =
      sg u (l.a * p.x + l.b * p.y + l.c) := by
    simp only [Line.flip, Vec.flip, sg_mul]
    rw [show ((s ^^ u) ^^ s) = u by cases s <;> cases u <;> rfl, show ((t ^^ u) ^^ t) = u by cases t <;> cases u <;> rfl, sg_add, sg_add]
  have h2 : (l.flip s t u).a * (l.flip s t u).a + (l.flip s t u).b * (l.flip s t u).b = l.a * l.a + l.b * l.b := by
    simp only [Line.flip, sg_mul, Bool.xor_self, sg_false]
  refine ⟨flip_ofPoints s t p q, flip_perpendicular s t u l p, ?_, flip_intersection s t u u' l m, ?_, ?_, ?_⟩
  · unfold Line.isParallel
    have : (l.flip s t u).a * (m.flip s t u').b - (m.flip s t u').a * (l.flip s t u).b =
        sg (s ^^ t ^^ u ^^ u') (l.a * m.b - m.a * l.b) := by
      simp only [Line.flip, sg_mul]
      rw [show ((s ^^ u) ^^ (t ^^ u')) = (s ^^ t ^^ u ^^ u') by cases s <;> cases t <;> cases u <;> cases u' <;> rfl,
        show ((s ^^ u') ^^ (t ^^ u)) = (s ^^ t ^^ u ^^ u') by cases s <;> cases t <;> cases u <;> cases u' <;> rfl, sg_sub]
    rw [this, fabs_sg]
  · unfold Line.projection
    rw [flip_perpendicular, flip_intersection]
  · unfold Line.dist
    simp only [h1, h2, pyDiv_sg]
    unfold pyDiv
    split
    · rfl
    · simp only [Except.map, bind, Except.bind, pure, Except.pure, fabs_sg]
  · unfold Line.dist2
    simp only [h1, h2, sg_mul, Bool.xor_self, sg_false]

/-! ## Segments -/

theorem flip_dsa (s t : Bool) (a b c : Vec K) : Tri.dsa (a.flip s t) (b.flip s t) (c.flip s t) = sg (s ^^ t) (Tri.dsa a b c) := by
  simp only [Tri.dsa, Vec.flip, sg_sub, sg_mul, sg_add]

theorem sg_le_or (s : Bool) (a b p : K) :
    ((decide (sg s a ≤ sg s p) && decide (sg s p ≤ sg s b)) || (decide (sg s b ≤ sg s p) && decide (sg s p ≤ sg s a))) =
      ((decide (a ≤ p) && decide (p ≤ b)) || (decide (b ≤ p) && decide (p ≤ a))) := by
  cases s
  · rfl
  · simp only [sg, if_true, OddNum.neg_le]
    rw [Bool.and_comm (decide (p ≤ a)), Bool.and_comm (decide (p ≤ b)), Bool.or_comm]

theorem flip_check (s t : Bool) (e : Seg K) (p : Vec K) :
    (e.flip s t).checkIntersectsOnLine (p.flip s t) = e.checkIntersectsOnLine p := by
  unfold Seg.checkIntersectsOnLine
  simp only [Seg.flip, Vec.flip, sg_beq]
  split
  · exact sg_le_or t _ _ _
  · exact sg_le_or s _ _ _

theorem flip_exist (s t : Bool) (e f : Seg K) : (e.flip s t).existIntersection (f.flip s t) = e.existIntersection f := by
  unfold Seg.existIntersection
  simp only [flip_check, show (e.flip s t).origin = e.origin.flip s t from rfl, show (e.flip s t).terminal = e.terminal.flip s t from rfl,
    show (f.flip s t).origin = f.origin.flip s t from rfl, show (f.flip s t).terminal = f.terminal.flip s t from rfl, flip_dsa, flip_eq,
    sg_mul, Bool.xor_self, sg_false, sg_beq_zero]

theorem flip_except (s t : Bool) (e f : Seg K) :
    (e.flip s t).existIntersectionExceptEndpoint (f.flip s t) = e.existIntersectionExceptEndpoint f := by
  unfold Seg.existIntersectionExceptEndpoint
  simp only [show (e.flip s t).origin = e.origin.flip s t from rfl, show (e.flip s t).terminal = e.terminal.flip s t from rfl,
    show (f.flip s t).origin = f.origin.flip s t from rfl, show (f.flip s t).terminal = f.terminal.flip s t from rfl, flip_dsa,
    sg_mul, Bool.xor_self, sg_false]

theorem flip_seg_contains (s t : Bool) (e : Seg K) (p : Vec K) : (e.flip s t).contains (p.flip s t) = e.contains p := by
  simp only [Seg.contains, Seg.flip, Vec.flip, sg_sub, sg_mul, Bool.xor_self, sg_false]

theorem flip_projection (s t : Bool) (e : Seg K) (p : Vec K) : (e.flip s t).projection (p.flip s t) = (e.projection p).flip s t := by
  unfold Seg.projection
  simp only [show (e.flip s t).origin = e.origin.flip s t from rfl, show (e.flip s t).terminal = e.terminal.flip s t from rfl,
    flip_sub, flip_r]
  by_cases h : (e.terminal.sub e.origin).r < EPSILON
  · simp only [h, if_true]
  · simp only [h, if_false]
    rw [show Vec.ofXY (((e.terminal.sub e.origin).flip s t).x / (e.terminal.sub e.origin).r)
      (((e.terminal.sub e.origin).flip s t).y / (e.terminal.sub e.origin).r) =
      (Vec.ofXY ((e.terminal.sub e.origin).x / (e.terminal.sub e.origin).r)
        ((e.terminal.sub e.origin).y / (e.terminal.sub e.origin).r)).flip s t by
      simp only [Vec.ofXY, Vec.flip, sg_div_left], flip_inner]
    generalize Vec.ofXY ((e.terminal.sub e.origin).x / (e.terminal.sub e.origin).r)
        ((e.terminal.sub e.origin).y / (e.terminal.sub e.origin).r) = d
    generalize d.innerProduct (p.sub e.origin) = ip
    split
    · simp only [Vec.ofVec, Vec.flip, Vec.iadd, Vec.imul, sg_mul_left, sg_add]
    · rw [Vec.invalid_flip]

theorem flip_nearest (s t : Bool) (e : Seg K) (p : Vec K) :
    (e.flip s t).nearestPoint (p.flip s t) = (e.nearestPoint p).flip s t := by
  unfold Seg.nearestPoint
  simp only [show (e.flip s t).origin = e.origin.flip s t from rfl, show (e.flip s t).terminal = e.terminal.flip s t from rfl,
    flip_sub, flip_r2, flip_inner]
  split
  · rfl
  split
  · rfl
  split
  · rfl
  · rw [← flip_add]
    simp only [Vec.mul, Vec.ofXY, Vec.flip, sg_mul_left, sg_div_left]

theorem flip_distPoint (s t : Bool) (e : Seg K) (p : Vec K) : (e.flip s t).distPoint (p.flip s t) = e.distPoint p := by
  unfold Seg.distPoint Seg.length
  simp only [show (e.flip s t).origin = e.origin.flip s t from rfl, show (e.flip s t).terminal = e.terminal.flip s t from rfl,
    flip_sub, flip_dist, flip_dist2, flip_inner, flip_dsa, sg_div_left, fabs_sg]

theorem flip_intersectionLine (s t u : Bool) (e : Seg K) (l : Line K) :
    (e.flip s t).intersectionLine (l.flip s t u) = (e.intersectionLine l).flip s t := by
  unfold Seg.intersectionLine Seg.line
  simp only [show (e.flip s t).origin = e.origin.flip s t from rfl, show (e.flip s t).terminal = e.terminal.flip s t from rfl,
    flip_ofPoints, flip_intersection, flip_seg_contains]
  simp only [show ∀ v : Vec K, (v.flip s t).valid = v.valid from fun _ => rfl]
  split
  · rw [Vec.invalid_flip]
  · rfl

theorem flip_intersectionSeg (s t b : Bool) (e f : Seg K) :
    (e.flip s t).intersectionSeg (f.flip s t) b = (e.intersectionSeg f b).flip s t := by
  unfold Seg.intersectionSeg Seg.line
  simp only [show (e.flip s t).origin = e.origin.flip s t from rfl, show (e.flip s t).terminal = e.terminal.flip s t from rfl,
    show (f.flip s t).origin = f.origin.flip s t from rfl, show (f.flip s t).terminal = f.terminal.flip s t from rfl,
    flip_ofPoints, flip_intersection, flip_seg_contains, flip_except]
  simp only [show ∀ v : Vec K, (v.flip s t).valid = v.valid from fun _ => rfl]
  split
  · rw [Vec.invalid_flip]
  split
  · rw [Vec.invalid_flip]
  · rfl

/-- **C175** Segments: all tests, the intersections, nearest points, projections and distances. -/
theorem C175_segment (s t u b : Bool) (e f : Seg K) (l : Line K) (p : Vec K) :
    (e.flip s t).length = e.length ∧ (e.flip s t).contains (p.flip s t) = e.contains p ∧
    (e.flip s t).onSegment (p.flip s t) = e.onSegment p ∧ (e.flip s t).onSegmentWeakly (p.flip s t) = e.onSegmentWeakly p ∧
    (e.flip s t).existIntersection (f.flip s t) = e.existIntersection f ∧
    (e.flip s t).existIntersectionExceptEndpoint (f.flip s t) = e.existIntersectionExceptEndpoint f ∧
    (e.flip s t).existIntersectionLine (l.flip s t u) = e.existIntersectionLine l ∧
    (e.flip s t).intersectionLine (l.flip s t u) = (e.intersectionLine l).flip s t ∧
    (e.flip s t).intersectionSeg (f.flip s t) b = (e.intersectionSeg f b).flip s t ∧
    (e.flip s t).projection (p.flip s t) = (e.projection p).flip s t ∧
    (e.flip s t).nearestPoint (p.flip s t) = (e.nearestPoint p).flip s t ∧
    (e.flip s t).distPoint (p.flip s t) = e.distPoint p ∧ (e.flip s t).distSeg (f.flip s t) = e.distSeg f ∧
    (e.flip s t).farthestDist (p.flip s t) = e.farthestDist p := by
  have fo : ∀ e : Seg K, (e.flip s t).origin = e.origin.flip s t := fun _ => rfl
  have ft : ∀ e : Seg K, (e.flip s t).terminal = e.terminal.flip s t := fun _ => rfl
  refine ⟨?_, flip_seg_contains s t e p, ?_, ?_, flip_exist s t e f, flip_except s t e f, ?_, flip_intersectionLine s t u e l,
    flip_intersectionSeg s t b e f, flip_projection s t e p, flip_nearest s t e p, flip_distPoint s t e p, ?_, ?_⟩
  · unfold Seg.length; rw [fo, ft, flip_dist]
  · unfold Seg.onSegment; rw [fo, ft, flip_dsa, sg_beq_zero, flip_check]
  · unfold Seg.onSegmentWeakly; simp only [flip_projection, flip_weakly]; rfl
  · have h : ∀ v : Vec K, (l.flip s t u).a * (v.flip s t).x + (l.flip s t u).b * (v.flip s t).y + (l.flip s t u).c =
        sg u (l.a * v.x + l.b * v.y + l.c) := fun v => by
      simp only [Line.flip, Vec.flip, sg_mul]
      rw [show ((s ^^ u) ^^ s) = u by cases s <;> cases u <;> rfl, show ((t ^^ u) ^^ t) = u by cases t <;> cases u <;> rfl,
        sg_add, sg_add]
    unfold Seg.existIntersectionLine
    simp only [fo, ft, h, sg_mul, Bool.xor_self, sg_false]
  · unfold Seg.distSeg; simp only [fo, ft, flip_exist, flip_distPoint]
  · unfold Seg.farthestDist; rw [fo, ft, flip_dist2, flip_dist2]

/-! ## Triangles -/

theorem sg_side (s : Bool) (x y z : K) :
    ((decide (num 0 ≤ sg s x) && decide (num 0 ≤ sg s y) && decide (num 0 ≤ sg s z)) ||
      (decide (sg s x ≤ num 0) && decide (sg s y ≤ num 0) && decide (sg s z ≤ num 0))) =
    ((decide (num 0 ≤ x) && decide (num 0 ≤ y) && decide (num 0 ≤ z)) ||
      (decide (x ≤ num 0) && decide (y ≤ num 0) && decide (z ≤ num 0))) := by
  cases s
  · rfl
  · have h1 : ∀ a : K, (num 0 ≤ -a) ↔ a ≤ num 0 := fun a => by
      conv_lhs => rw [← OddNum.neg_zero (K := K)]
      exact OddNum.neg_le _ _
    have h2 : ∀ a : K, (-a ≤ num 0) ↔ num 0 ≤ a := fun a => by
      conv_lhs => rw [← OddNum.neg_zero (K := K)]
      exact OddNum.neg_le _ _
    simp only [sg, if_true, h1, h2]
    rw [Bool.or_comm]

/-- **C175** Triangles: areas, containment, orthocenter. -/
theorem C175_triangle (s t : Bool) (d : Tri K) (p : Vec K) :
    Tri.dsa (d.a.flip s t) (d.b.flip s t) (d.c.flip s t) = sg (s ^^ t) (Tri.dsa d.a d.b d.c) ∧
    Tri.signedArea (d.a.flip s t) (d.b.flip s t) (d.c.flip s t) = sg (s ^^ t) (Tri.signedArea d.a d.b d.c) ∧
    (d.flip s t).area = d.area ∧ (d.flip s t).contains (p.flip s t) = d.contains p ∧
    (d.flip s t).orthocenter = d.orthocenter.flip s t := by
  refine ⟨flip_dsa s t _ _ _, ?_, ?_, ?_, ?_⟩
  · unfold Tri.signedArea; rw [flip_dsa, sg_mul_left]
  · unfold Tri.area
    simp only [Tri.flip, flip_sub, flip_outer, fabs_sg]
  · unfold Tri.contains Tri.triContains
    simp only [Tri.flip, flip_sub]
    simp only [show ∀ v : Vec K, Vec.ofVec (v.flip s t) = (Vec.ofVec v).flip s t from fun _ => rfl, flip_outer, sg_side]
  · unfold Tri.orthocenter Tri.triOrthocenter
    simp only [Tri.flip, flip_ofPoints, flip_perpendicular, flip_intersection]

/-- **C175** (partial: no two vertices are within EPSILON of each other in both coordinates). The circumcenter. -/
theorem C175_circumcenter_partial (s t : Bool) (d : Tri K) (h1 : d.b.equalsWeakly d.a = false) (h2 : d.c.equalsWeakly d.b = false)
    (h3 : d.a.equalsWeakly d.c = false) : (d.flip s t).circumcenter = d.circumcenter.flip s t := by
  unfold Tri.circumcenter Tri.triCircumcenter
  simp only [Tri.flip, flip_perpBisector s t _ _ h1, flip_perpBisector s t _ _ h2, flip_perpBisector s t _ _ h3, flip_intersection,
    flip_sub, flip_outer, flip_r2, fabs_sg]
  simp only [show ∀ v : Vec K, (v.flip s t).valid = v.valid from fun _ => rfl]
  have hf : (if fabs ((d.b.sub d.a).outerProduct (d.c.sub d.a)) < num 1 / num 10000000000 then Vec.invalid
      else Vec.ofXY ((d.a.flip s t).x + num 1 / num 2 / sg (s ^^ t) ((d.b.sub d.a).outerProduct (d.c.sub d.a)) *
        ((d.b.sub d.a).r2 * ((d.c.sub d.a).flip s t).y - (d.c.sub d.a).r2 * ((d.b.sub d.a).flip s t).y))
        ((d.a.flip s t).y + num 1 / num 2 / sg (s ^^ t) ((d.b.sub d.a).outerProduct (d.c.sub d.a)) *
        (((d.b.sub d.a).flip s t).x * (d.c.sub d.a).r2 - ((d.c.sub d.a).flip s t).x * (d.b.sub d.a).r2))) =
      Vec.flip s t (if fabs ((d.b.sub d.a).outerProduct (d.c.sub d.a)) < num 1 / num 10000000000 then Vec.invalid
      else Vec.ofXY (d.a.x + num 1 / num 2 / ((d.b.sub d.a).outerProduct (d.c.sub d.a)) *
        ((d.b.sub d.a).r2 * (d.c.sub d.a).y - (d.c.sub d.a).r2 * (d.b.sub d.a).y))
        (d.a.y + num 1 / num 2 / ((d.b.sub d.a).outerProduct (d.c.sub d.a)) *
        ((d.b.sub d.a).x * (d.c.sub d.a).r2 - (d.c.sub d.a).x * (d.b.sub d.a).r2))) := by
    split
    · rw [Vec.invalid_flip]
    · rename_i h
      have h0 : ((d.b.sub d.a).outerProduct (d.c.sub d.a) == num 0) = false := by
        rw [← Bool.not_eq_true]; exact fun h' => h (OddNum.zero_tiny _ h')
      have hd : ∀ a : K, a / sg (s ^^ t) ((d.b.sub d.a).outerProduct (d.c.sub d.a)) =
          sg (s ^^ t) (a / (d.b.sub d.a).outerProduct (d.c.sub d.a)) := fun a => by
        have := sg_div false (s ^^ t) a _ h0
        rwa [sg_false, Bool.false_xor] at this
      simp only [hd, Vec.flip, Vec.ofXY, sg_mul_right, sg_mul_left, sg_sub, sg_sg]
      rw [show (t ^^ (s ^^ t)) = s by cases s <;> cases t <;> rfl, show (s ^^ (s ^^ t)) = t by cases s <;> cases t <;> rfl,
        sg_add, sg_add]
  rw [hf]
  split
  · split
    · rfl
    split
    · rfl
    · rfl
  · rfl

/-! ## Circles -/

theorem weakly_symm (v w : Vec K) : v.equalsWeakly w = w.equalsWeakly v := by
  unfold Vec.equalsWeakly
  rw [OddNum.sub_swap v.x, OddNum.sub_swap v.y, OddNum.fabs_neg, OddNum.fabs_neg]

/-- The roots of `a x² ± b x + c`. -/
theorem quadraticF_sg (s : Bool) (a b c : K) :
    quadraticF a (sg s b) c = (quadraticF a b c).map fun l => if s then l.reverse.map (sg s) else l := by
  cases s
  · rw [sg_false]
    cases quadraticF a b c <;> rfl
  · unfold quadraticF
    simp only [sg_mul, Bool.xor_self, sg_false]
    have h1 : -(sg true b) / (num 2 * a) = sg true (-b / (num 2 * a)) := by rw [sg_neg, sg_div_left]
    have h2 : ∀ d : K, -(sg true b) + d = sg true (-b - d) := fun d => by
      have := OddNum.neg_sub (-b) d
      rw [OddNum.sub_neg] at this
      simpa [sg] using this
    have h3 : ∀ d : K, -(sg true b) - d = sg true (-b + d) := fun d => by
      have := OddNum.neg_add (-b) d
      simp only [sg, if_true]
      rw [← this, ← OddNum.sub_neg, OddNum.neg_neg d]
    simp only [h1, h2, h3, sg_div_left]
    split
    · rfl
    split
    · rfl
    split
    · rfl
    · rfl

/-- How the points found for the mirror image are related to the points found: the same points mirrored, possibly in the other order;
or one point each, the code having dropped one of two points within EPSILON of each other. -/
def MirrorPoints (s t : Bool) (l l' : List (Vec K)) : Prop :=
  l' = l.map (Vec.flip s t) ∨ l' = l.reverse.map (Vec.flip s t) ∨
    ∃ p q : Vec K, l = [p] ∧ l' = [q.flip s t] ∧ p.equalsWeakly q = true

/-- The same exception, or related points. -/
def MirrorResult (s t : Bool) : Except PyErr (List (Vec K)) → Except PyErr (List (Vec K)) → Prop
  | .ok l, .ok l' => MirrorPoints s t l l'
  | .error e, .error e' => e = e'
  | _, _ => False

theorem quadraticF_two {a b c : K} {l : List K} (h : quadraticF a b c = .ok l) : l = [] ∨ ∃ x y, l = [x, y] := by
  unfold quadraticF at h
  simp only at h
  split at h
  · cases h
  split at h
  · cases h; exact Or.inr ⟨_, _, rfl⟩
  split at h
  · cases h; exact Or.inl rfl
  · cases h; exact Or.inr ⟨_, _, rfl⟩

theorem mirror_solPoints (s t w : Bool) (mk mk' : K → Vec K) (h : ∀ x, mk' (sg w x) = (mk x).flip s t) (a b c : K) :
    MirrorResult s t ((quadraticF a b c).map (Circle.solPoints mk)) ((quadraticF a (sg w b) c).map (Circle.solPoints mk')) := by
  rw [quadraticF_sg]
  rcases hq : quadraticF a b c with e | l
  · rfl
  rcases quadraticF_two hq with rfl | ⟨x, y, rfl⟩
  · cases w <;> exact Or.inl rfl
  · cases w
    · refine Or.inl ?_
      have hx := h x
      have hy := h y
      rw [sg_false] at hx hy
      simp only [Circle.solPoints, Bool.false_eq_true, if_false, hx, hy, flip_weakly]
      split <;> rfl
    · simp only [Except.map, MirrorResult, if_true, List.reverse_cons, List.reverse_nil, List.nil_append, List.cons_append,
        List.map_cons, List.map_nil, Circle.solPoints, h, flip_weakly, weakly_symm (mk y) (mk x)]
      by_cases hw : (mk x).equalsWeakly (mk y) = true
      · simp only [hw, if_true]
        exact Or.inr (Or.inr ⟨_, _, rfl, rfl, hw⟩)
      · simp only [hw]
        exact Or.inr (Or.inl rfl)

theorem mirror_circle_line (s t u : Bool) (c : Circle K) (l : Line K) :
    MirrorResult s t (c.intersectionLine l) ((c.flip s t).intersectionLine (l.flip s t u)) := by
  have hdef : ∀ (q : Except PyErr (List K)) (f : List K → List (Vec K)), (do let x ← q; return f x) = q.map f := by
    intro q f; cases q <;> rfl
  unfold Circle.intersectionLine
  simp only [hdef]
  have ha : fabs (l.flip s t u).a = fabs l.a := by simp only [Line.flip, fabs_sg]
  have hb : fabs (l.flip s t u).b = fabs l.b := by simp only [Line.flip, fabs_sg]
  rw [ha, hb]
  by_cases h1 : fabs l.a < EPSILON
  · rw [if_pos h1, if_pos h1]
    by_cases h2 : fabs l.b < EPSILON
    · rw [if_pos h2, if_pos h2]; exact Or.inl rfl
    · rw [if_neg h2, if_neg h2]
      have h0 : (l.b == num 0) = false := by
        rw [← Bool.not_eq_true]; exact fun h' => h2 (OddNum.zero_small _ h')
      have e1 : (l.flip s t u).c / (l.flip s t u).b = sg t (l.c / l.b) := by
        simp only [Line.flip]
        rw [sg_div _ _ _ _ h0]; congr 1; cases t <;> cases u <;> rfl
      have e2 : -(l.flip s t u).c / (l.flip s t u).b = sg t (-l.c / l.b) := by
        simp only [Line.flip]
        rw [sg_neg, sg_div _ _ _ _ h0]; congr 1; cases t <;> cases u <;> rfl
      have := mirror_solPoints s t s (fun x => Vec.ofXY x (-l.c / l.b)) (fun x => Vec.ofXY x (-(l.flip s t u).c / (l.flip s t u).b))
        (fun x => by simp only [e2, Vec.ofXY, Vec.flip]) (num 1) (-(num 2) * c.center.x)
        (sq c.center.x + sq (l.c / l.b + c.center.y) - sq c.radius)
      convert this using 2
      rw [e1]
      simp only [Circle.flip, Vec.flip, sg_mul_right, sq_sg, sg_add]
  · rw [if_neg h1, if_neg h1]
    have h0 : (l.a == num 0) = false := by
      rw [← Bool.not_eq_true]; exact fun h' => h1 (OddNum.zero_small _ h')
    have e1 : (l.flip s t u).b / (l.flip s t u).a = sg (s ^^ t) (l.b / l.a) := by
      simp only [Line.flip]
      rw [sg_div _ _ _ _ h0]; congr 1; cases s <;> cases t <;> cases u <;> rfl
    have e2 : (l.flip s t u).c / (l.flip s t u).a = sg s (l.c / l.a) := by
      simp only [Line.flip]
      rw [sg_div _ _ _ _ h0]; congr 1; cases s <;> cases u <;> rfl
    have hx : ∀ y, (l.flip s t u).getX (sg t y) = sg s (l.getX y) := fun y => by
      unfold Line.getX
      rw [ha, if_neg h1, if_neg h1]
      simp only [Line.flip, sg_mul]
      rw [show ((t ^^ u) ^^ t) = u by cases t <;> cases u <;> rfl, sg_add, sg_neg, sg_div _ _ _ _ h0]
      congr 1; cases s <;> cases u <;> rfl
    have := mirror_solPoints s t t (fun y => Vec.ofXY (l.getX y) y) (fun y => Vec.ofXY ((l.flip s t u).getX y) y)
      (fun y => by simp only [hx, Vec.ofXY, Vec.flip]) (num 1 + l.b / l.a * (l.b / l.a))
      (num 2 * (-c.center.y + (l.c / l.a + c.center.x) * (l.b / l.a)))
      (sq (l.c / l.a + c.center.x) + sq c.center.y - sq c.radius)
    convert this using 2
    simp only [e1, e2, Circle.flip, Vec.flip, sg_add, sg_mul, sq_sg, Bool.xor_self, sg_false]
    rw [show (s ^^ (s ^^ t)) = t by cases s <;> cases t <;> rfl, sg_neg, sg_add, sg_mul_right]

/-- **C175** Circles: containment, intersection with lines and circles, the test for the circumscribed circle. -/
theorem C175_circle (s t u : Bool) (c d : Circle K) (l : Line K) (p p0 p1 p2 : Vec K) :
    (c.flip s t).area = c.area ∧ (c.flip s t).contains (p.flip s t) = c.contains p ∧
    MirrorResult s t (c.intersectionLine l) ((c.flip s t).intersectionLine (l.flip s t u)) ∧
    MirrorResult s t (c.intersectionCircle d) ((c.flip s t).intersectionCircle (d.flip s t)) ∧
    Circle.circumCircleContains (p.flip s t) (p0.flip s t) (p1.flip s t) (p2.flip s t) =
      Circle.circumCircleContains p p0 p1 p2 := by
  refine ⟨rfl, ?_, mirror_circle_line s t u c l, ?_, ?_⟩
  · unfold Circle.contains
    simp only [Circle.flip, flip_dist2]
  · unfold Circle.intersectionCircle
    simp only [Circle.flip, flip_r2]
    simp only [Vec.flip, sg_sub, sg_mul, Bool.xor_self, sg_false]
    split
    · exact Or.inl rfl
    · have := mirror_circle_line s t false c ⟨-(num 2) * (d.center.x - c.center.x), -(num 2) * (d.center.y - c.center.y),
        d.center.r2 - d.radius * d.radius - c.center.r2 + c.radius * c.radius⟩
      simpa only [Circle.flip, Line.flip, Vec.flip, Bool.xor_false, sg_false, sg_mul_right] using this
  · unfold Circle.circumCircleContains
    simp only [Vec.flip, sg_sub, sg_add, sg_mul, Bool.xor_self, sg_false, Bool.xor_comm t s]
    simp only [sg_mul_right, fabs_sg]
    by_cases h1 : fabs (num 2 * ((p1.x - p0.x) * (p2.y - p1.y) - (p1.y - p0.y) * (p2.x - p1.x))) < num 1 / num 10000000000
    · rw [if_pos h1, if_pos h1]
    · rw [if_neg h1, if_neg h1]
      have h0 : (num 2 * ((p1.x - p0.x) * (p2.y - p1.y) - (p1.y - p0.y) * (p2.x - p1.x)) == num 0) = false := by
        rw [← Bool.not_eq_true]; exact fun h' => h1 (OddNum.zero_tiny _ h')
      have e1 : (t ^^ (s ^^ t)) = s := by cases s <;> cases t <;> rfl
      have e2 : (s ^^ (s ^^ t)) = t := by cases s <;> cases t <;> rfl
      simp only [sg_mul_left, sg_sub, sg_div _ _ _ _ h0, e1, e2]
      have := fun (x y : K) (w : Vec K) => flip_dist2 s t (Vec.ofXY x y) w
      simp only [Vec.ofXY, Vec.flip] at this ⊢
      refine decide_eq_decide.mpr ?_
      rw [this _ _ p, this _ _ p0]

/-! ## Polygons and the travel of a ball -/

theorem cyclicPairs_flip (s t : Bool) (l : List (Vec K)) :
    cyclicPairs (l.map (Vec.flip s t)) = (cyclicPairs l).map fun e => (e.1.flip s t, e.2.flip s t) := by
  cases l with
  | nil => rfl
  | cons a r =>
    simp only [cyclicPairs, List.map_cons]
    rw [show List.map (Vec.flip s t) r ++ [a.flip s t] = List.map (Vec.flip s t) (r ++ [a]) by simp, ← List.map_cons, List.zip_map]
    rfl

theorem chainPairs_flip (s t : Bool) (l : List (Vec K)) :
    chainPairs (l.map (Vec.flip s t)) = (chainPairs l).map fun e => (e.1.flip s t, e.2.flip s t) := by
  unfold chainPairs
  rw [← List.map_tail, List.zip_map]
  rfl

theorem flip_dsa_poly (s t : Bool) (p : Poly K) : (p.flip s t).doubleSignedArea = sg (s ^^ t) p.doubleSignedArea := by
  unfold Poly.doubleSignedArea
  simp only [Poly.flip, List.length_map]
  split
  · rw [sg_zero]
  · rw [cyclicPairs_flip, List.foldl_map]
    have key : ∀ (l : List (Vec K × Vec K)) (a : K),
        l.foldl (fun acc e => acc + ((e.1.flip s t).x * (e.2.flip s t).y - (e.2.flip s t).x * (e.1.flip s t).y)) (sg (s ^^ t) a) =
          sg (s ^^ t) (l.foldl (fun acc e => acc + (e.1.x * e.2.y - e.2.x * e.1.y)) a) := by
      intro l
      induction l with
      | nil => intro a; rfl
      | cons e l ih =>
        intro a
        simp only [List.foldl_cons]
        rw [← ih]
        congr 1
        simp only [Vec.flip, sg_mul, sg_sub, sg_add]
    have := key (cyclicPairs p.vertices) (num 0)
    rwa [sg_zero] at this

theorem flip_distStep (s t : Bool) (p : Vec K) (m : Option K) (e : Vec K × Vec K) :
    Poly.distStep (p.flip s t) m (e.1.flip s t, e.2.flip s t) = Poly.distStep p m e := by
  unfold Poly.distStep
  have : Seg.ofPoints (e.1.flip s t) (e.2.flip s t) = (Seg.ofPoints e.1 e.2).flip s t := rfl
  simp only [this, flip_distPoint]

/-- **C175** Polygons: the signed area changes its sign under one mirror, the orientation is reversed, the area and the distance to the
outline stay. -/
theorem C175_polygon (s t : Bool) (g : Poly K) (p : Vec K) :
    (g.flip s t).doubleSignedArea = sg (s ^^ t) g.doubleSignedArea ∧ (g.flip s t).area = g.area ∧
    (g.flip s t).isCounterClockwise = (if s ^^ t then g.isClockwise else g.isCounterClockwise) ∧
    (g.flip s t).isClockwise = (if s ^^ t then g.isCounterClockwise else g.isClockwise) ∧
    (g.flip s t).dist (p.flip s t) false = g.dist p false := by
  refine ⟨flip_dsa_poly s t g, ?_, ?_, ?_, ?_⟩
  · unfold Poly.area
    rw [flip_dsa_poly, sg_mul_left, fabs_sg]
  · unfold Poly.isCounterClockwise Poly.isClockwise
    rw [flip_dsa_poly]
    cases (s ^^ t)
    · rfl
    · refine decide_eq_decide.mpr ?_
      simpa only [sg, if_true, OddNum.neg_zero] using OddNum.neg_lt (num 0) g.doubleSignedArea
  · unfold Poly.isCounterClockwise Poly.isClockwise
    rw [flip_dsa_poly]
    cases (s ^^ t)
    · rfl
    · refine decide_eq_decide.mpr ?_
      simpa only [sg, if_true, OddNum.neg_zero] using OddNum.neg_lt g.doubleSignedArea (num 0)
  · rcases g with ⟨l⟩
    have hf : ∀ (l : List (Vec K)), (chainPairs (l.map (Vec.flip s t))).foldl (Poly.distStep (p.flip s t)) none =
        (chainPairs l).foldl (Poly.distStep p) none := by
      intro l
      rw [chainPairs_flip, List.foldl_map]
      congr 1
      funext m e
      exact flip_distStep s t p m e
    rcases l with _ | ⟨a, _ | ⟨b, _ | ⟨c, r⟩⟩⟩
    · rfl
    · simp only [Poly.dist, Poly.flip, List.map_cons, List.map_nil, flip_sub, flip_r]
    · have := hf [a, b]
      simpa only [Poly.dist, Poly.flip, List.map_cons, List.map_nil, Bool.false_and, Bool.false_eq_true, if_false] using this
    · have h1 := hf (a :: b :: c :: r)
      have h2 : (Vec.flip s t c :: List.map (Vec.flip s t) r).getLast (List.cons_ne_nil _ _) =
          ((c :: r).getLast (List.cons_ne_nil _ _)).flip s t := by
        rw [← List.getLast_map (f := Vec.flip s t)]
        · rfl
      simp only [Poly.dist, Poly.flip, List.map_cons, Bool.false_and, Bool.false_eq_true, if_false] at h1 ⊢
      rw [h1, h2]
      exact flip_distStep s t p _ (_, a)

open SoccerMath in
/-- **C175** The travel of a ball started in the mirrored direction, with the same exceptions. -/
theorem C175_travel (s t : Bool) (pos vel : Vec K) (n : ℤ) (decay : K) :
    inertiaNStepTravel (vel.flip s t) n decay = (inertiaNStepTravel vel n decay).map (Vec.flip s t) ∧
    inertiaNStepPoint (pos.flip s t) (vel.flip s t) n decay = (inertiaNStepPoint pos vel n decay).map (Vec.flip s t) ∧
    inertiaFinalTravel (vel.flip s t) decay = (inertiaFinalTravel vel decay).map (Vec.flip s t) ∧
    inertiaFinalPoint (pos.flip s t) (vel.flip s t) decay = (inertiaFinalPoint pos vel decay).map (Vec.flip s t) := by
  have h1 : inertiaNStepTravel (vel.flip s t) n decay = (inertiaNStepTravel vel n decay).map (Vec.flip s t) := by
    unfold inertiaNStepTravel
    rcases mathPow decay n with e | q
    · rfl
    simp only [bind, Except.bind]
    rcases pyDiv (num 1 - q) (num 1 - decay) with e | r
    · rfl
    simp only [Except.map, pure, Except.pure]
    congr 1
    exact (C175_vector s t (Vec.ofXY vel.x vel.y) vel r).2.2.1
  have h3 : inertiaFinalTravel (vel.flip s t) decay = (inertiaFinalTravel vel decay).map (Vec.flip s t) := by
    unfold inertiaFinalTravel
    exact (C175_vector s t (Vec.ofXY vel.x vel.y) vel (num 1 - decay)).2.2.2.2.2.2.1
  have hadd : ∀ w : Vec K, (Vec.ofXY (pos.flip s t).x (pos.flip s t).y).add (w.flip s t) = ((Vec.ofXY pos.x pos.y).add w).flip s t :=
    fun w => flip_add s t (Vec.ofXY pos.x pos.y) w
  refine ⟨h1, ?_, h3, ?_⟩
  · unfold inertiaNStepPoint
    rw [h1]
    rcases inertiaNStepTravel vel n decay with e | q
    · rfl
    · simp only [bind, Except.bind, Except.map, pure, Except.pure, hadd]
  · unfold inertiaFinalPoint
    rw [h3]
    rcases inertiaFinalTravel vel decay with e | q
    · rfl
    · simp only [bind, Except.bind, Except.map, pure, Except.pure, hadd]

end

end PyrusGeom
