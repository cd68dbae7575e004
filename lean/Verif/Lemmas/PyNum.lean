import Verif.Model.PyNum
import Verif.Model.Polygon
import Verif.Model.ConvexHull
import Verif.Model.Matrix
import Verif.Model.Wrappers
import Verif.Model.Sector

/-! # Integers in place of floats: the simulation -/

namespace PyrusGeom

/-- `sim k a b`: `a` and `b` are the same up to the type of their numbers, and the `int`s in `a` are at most `2 ^ k`. -/
class NumSim (α : Type) (β : outParam Type) where
  sim : ℕ → α → β → Prop
  mono : ∀ {k l : ℕ} {a : α} {b : β}, sim k a b → k ≤ l → sim l a b

export NumSim (sim)

variable {lit : Bool}

/-- A Python number and a double. -/
def PyNum.NumSim (k : ℕ) (a : PyNum lit) (x : FP double) : Prop :=
  match a with
  | .int n => (n : ℝ) = x.val ∧ |n| ≤ 2 ^ k
  | .flt y => y = x

instance : NumSim (PyNum lit) (FP double) where
  sim := PyNum.NumSim
  mono {k l a b} h hkl := by
    cases a with
    | int n => exact ⟨h.1, h.2.trans (pow_le_pow_right₀ (by norm_num) hkl)⟩
    | flt y => exact h

instance : NumSim Bool Bool := ⟨fun _ a b => a = b, fun h _ => h⟩
instance : NumSim ℕ ℕ := ⟨fun _ a b => a = b, fun h _ => h⟩
instance : NumSim ℤ ℤ := ⟨fun _ a b => a = b, fun h _ => h⟩
instance : NumSim PyErr PyErr := ⟨fun _ a b => a = b, fun h _ => h⟩
instance : NumSim (AngleDeg (PyNum lit)) (AngleDeg (FP double)) := ⟨fun k a b => sim k a.deg b.deg, fun h hk => NumSim.mono h hk⟩
instance : NumSim (Vec (PyNum lit)) (Vec (FP double)) :=
  ⟨fun k a b => sim k a.x b.x ∧ sim k a.y b.y ∧ a.valid = b.valid, fun h hk => ⟨NumSim.mono h.1 hk, NumSim.mono h.2.1 hk, h.2.2⟩⟩
instance : NumSim (Line (PyNum lit)) (Line (FP double)) :=
  ⟨fun k a b => sim k a.a b.a ∧ sim k a.b b.b ∧ sim k a.c b.c, fun h hk => ⟨NumSim.mono h.1 hk, NumSim.mono h.2.1 hk, NumSim.mono h.2.2 hk⟩⟩
instance : NumSim (Ray (PyNum lit)) (Ray (FP double)) :=
  ⟨fun k a b => sim k a.origin b.origin ∧ sim k a.dir b.dir, fun h hk => ⟨NumSim.mono h.1 hk, NumSim.mono h.2 hk⟩⟩
instance : NumSim (Circle (PyNum lit)) (Circle (FP double)) :=
  ⟨fun k a b => sim k a.center b.center ∧ sim k a.radius b.radius, fun h hk => ⟨NumSim.mono h.1 hk, NumSim.mono h.2 hk⟩⟩
instance : NumSim (Seg (PyNum lit)) (Seg (FP double)) :=
  ⟨fun k a b => sim k a.origin b.origin ∧ sim k a.terminal b.terminal, fun h hk => ⟨NumSim.mono h.1 hk, NumSim.mono h.2 hk⟩⟩
instance : NumSim (Tri (PyNum lit)) (Tri (FP double)) :=
  ⟨fun k a b => sim k a.a b.a ∧ sim k a.b b.b ∧ sim k a.c b.c, fun h hk => ⟨NumSim.mono h.1 hk, NumSim.mono h.2.1 hk, NumSim.mono h.2.2 hk⟩⟩
instance : NumSim (Mat (PyNum lit)) (Mat (FP double)) :=
  ⟨fun k a b => (sim k a.m11 b.m11 ∧ sim k a.m12 b.m12 ∧ sim k a.m21 b.m21) ∧ sim k a.m22 b.m22 ∧ sim k a.dx b.dx ∧ sim k a.dy b.dy,
    fun h hk => ⟨⟨NumSim.mono h.1.1 hk, NumSim.mono h.1.2.1 hk, NumSim.mono h.1.2.2 hk⟩, NumSim.mono h.2.1 hk, NumSim.mono h.2.2.1 hk, NumSim.mono h.2.2.2 hk⟩⟩
instance : NumSim (Size (PyNum lit)) (Size (FP double)) :=
  ⟨fun k a b => sim k a.length b.length ∧ sim k a.width b.width, fun h hk => ⟨NumSim.mono h.1 hk, NumSim.mono h.2 hk⟩⟩
instance : NumSim (Rect (PyNum lit)) (Rect (FP double)) :=
  ⟨fun k a b => sim k a.topLeft b.topLeft ∧ sim k a.size b.size, fun h hk => ⟨NumSim.mono h.1 hk, NumSim.mono h.2 hk⟩⟩
instance : NumSim (Sector (PyNum lit)) (Sector (FP double)) :=
  ⟨fun k a b => (sim k a.center b.center ∧ sim k a.minR b.minR ∧ sim k a.maxR b.maxR) ∧ sim k a.start b.start ∧ sim k a.stop b.stop,
    fun h hk => ⟨⟨NumSim.mono h.1.1 hk, NumSim.mono h.1.2.1 hk, NumSim.mono h.1.2.2 hk⟩, NumSim.mono h.2.1 hk, NumSim.mono h.2.2 hk⟩⟩
instance {α β : Type} [NumSim α β] : NumSim (List α) (List β) := ⟨fun k => List.Forall₂ (sim k), fun h hk => h.imp fun _ _ h => NumSim.mono h hk⟩
instance {α β γ δ : Type} [NumSim α β] [NumSim γ δ] : NumSim (α × γ) (β × δ) :=
  ⟨fun k a b => sim k a.1 b.1 ∧ sim k a.2 b.2, fun h hk => ⟨NumSim.mono h.1 hk, NumSim.mono h.2 hk⟩⟩
instance {α β : Type} [NumSim α β] : NumSim (Option α) (Option β) := ⟨fun k => Option.Rel (sim k), fun h hk => by
  cases h with
  | some h => exact .some (NumSim.mono h hk)
  | none => exact .none⟩
/-- Results of functions that may raise. -/
inductive ExceptRel {α β : Type} (r : α → β → Prop) : Except PyErr α → Except PyErr β → Prop
  | ok {a b} : r a b → ExceptRel r (.ok a) (.ok b)
  | error (e) : ExceptRel r (.error e) (.error e)
instance {α β : Type} [NumSim α β] : NumSim (Except PyErr α) (Except PyErr β) := ⟨fun k => ExceptRel (sim k), fun h hk => by
  cases h with
  | ok h => exact .ok (NumSim.mono h hk)
  | error => exact .error _⟩
instance : NumSim (Poly (PyNum lit)) (Poly (FP double)) := ⟨fun k a b => sim k a.vertices b.vertices, fun h hk => NumSim.mono h hk⟩

namespace PyNum
variable {a b : PyNum lit} {x y : FP double} {k l : ℕ}

theorem NumSim.rv (h : sim k a x) : a.rv = x.val := by
  cases a with
  | int n => exact h.1
  | flt y => exact congrArg FP.val h

theorem NumSim.toF (h : sim k a x) (hk : k ≤ 53) : a.toF = x := by
  cases a with
  | int n =>
    refine FP.ext ?_
    have h' : |n| ≤ 2 ^ 53 := h.2.trans (pow_le_pow_right₀ (by norm_num) hk)
    exact (rne_of_isDouble (isDouble_int h')).trans h.1
  | flt y => exact h

theorem sim_flt (x : FP double) : sim k (flt x : PyNum lit) x := rfl

theorem sim_lt (h : sim k a x) (h' : sim l b y) : a < b ↔ x < y := by
  change a.rv < b.rv ↔ _
  rw [h.rv, h'.rv]; rfl

theorem sim_le (h : sim k a x) (h' : sim l b y) : a ≤ b ↔ x ≤ y := by
  change a.rv ≤ b.rv ↔ _
  rw [h.rv, h'.rv]; rfl

theorem sim_beq (h : sim k a x) (h' : sim l b y) : (a == b) = (x == y) := by
  change decide (a.rv = b.rv) = decide (x.val = y.val)
  rw [h.rv, h'.rv]

theorem sim_neg (h : sim k a x) : sim k (-a) (-x) := by
  cases a with
  | int n => exact ⟨by push_cast; exact congrArg Neg.neg h.1, by rw [abs_neg]; exact h.2⟩
  | flt y => exact congrArg Neg.neg h

theorem pow_abs_le {n m : ℤ} (h : |n| ≤ 2 ^ k) (h' : |m| ≤ 2 ^ l) : |n| + |m| ≤ 2 ^ (max k l + 1) := by
  have h1 : (2 : ℤ) ^ k ≤ 2 ^ max k l := pow_le_pow_right₀ (by norm_num) (le_max_left _ _)
  have h2 : (2 : ℤ) ^ l ≤ 2 ^ max k l := pow_le_pow_right₀ (by norm_num) (le_max_right _ _)
  rw [pow_succ]
  linarith

theorem rne_small {n : ℤ} (h : |n| ≤ 2 ^ k) (hk : k ≤ 53) : rne (n : ℝ) = n :=
  rne_of_isDouble (isDouble_int (h.trans (pow_le_pow_right₀ (by norm_num) hk)))

theorem sim_add (h : sim k a x) (h' : sim l b y) (hk : max k l + 1 ≤ 53) : sim (max k l + 1) (a + b) (x + y) := by
  have e1 := h.toF (by omega)
  have e2 := h'.toF (by omega)
  cases a with
  | int n =>
    cases b with
    | int m =>
      have hb : |n + m| ≤ 2 ^ (max k l + 1) := (abs_add_le _ _).trans (pow_abs_le h.2 h'.2)
      refine ⟨?_, hb⟩
      change _ = rne (x.val + y.val)
      rw [← h.1, ← h'.1, ← Int.cast_add, rne_small hb hk]
    | flt z => rw [← e1, ← e2]; rfl
  | flt w => rw [← e1, ← e2]; cases b <;> rfl

theorem sim_sub (h : sim k a x) (h' : sim l b y) (hk : max k l + 1 ≤ 53) : sim (max k l + 1) (a - b) (x - y) := by
  have e1 := h.toF (by omega)
  have e2 := h'.toF (by omega)
  cases a with
  | int n =>
    cases b with
    | int m =>
      have hb : |n - m| ≤ 2 ^ (max k l + 1) := (abs_sub _ _).trans (pow_abs_le h.2 h'.2)
      refine ⟨?_, hb⟩
      change _ = rne (x.val - y.val)
      rw [← h.1, ← h'.1, ← Int.cast_sub, rne_small hb hk]
    | flt z => rw [← e1, ← e2]; rfl
  | flt w => rw [← e1, ← e2]; cases b <;> rfl

theorem sim_mul (h : sim k a x) (h' : sim l b y) (hk : k + l ≤ 53) : sim (k + l) (a * b) (x * y) := by
  have e1 := h.toF (by omega)
  have e2 := h'.toF (by omega)
  cases a with
  | int n =>
    cases b with
    | int m =>
      have hb : |n * m| ≤ 2 ^ (k + l) := by rw [abs_mul, pow_add]; exact mul_le_mul h.2 h'.2 (abs_nonneg _) (by positivity)
      refine ⟨?_, hb⟩
      change _ = rne (x.val * y.val)
      rw [← h.1, ← h'.1, ← Int.cast_mul, rne_small hb hk]
    | flt z => rw [← e1, ← e2]; rfl
  | flt w => rw [← e1, ← e2]; cases b <;> rfl

theorem sim_div (h : sim k a x) (h' : sim l b y) (hk : max k l ≤ 53) : sim 0 (a / b) (x / y) := by
  have e1 := h.toF (by omega)
  have e2 := h'.toF (by omega)
  cases a with
  | int n =>
    cases b with
    | int m =>
      refine FP.ext ?_
      change rne _ = rne (x.val / y.val)
      rw [← h.1, ← h'.1]
    | flt z => rw [← e1, ← e2]; rfl
  | flt w => rw [← e1, ← e2]; cases b <;> rfl

theorem sim_num (n : ℕ) : sim (Nat.clog 2 n) (num n : PyNum lit) (num n : FP double) := by
  change sim _ (if lit = true ∧ n ≤ 1000 then int n else flt (n : FP double)) _
  split_ifs with h
  · refine ⟨?_, ?_⟩
    · change _ = rne _
      rw [rne_of_isDouble (isDouble_nat (by omega)), Int.cast_natCast]
    · rw [Nat.abs_cast]; exact_mod_cast Nat.le_pow_clog (by norm_num) n
  · rfl

section
variable [m : PyMath (FP double)]

theorem sim_sqrt (h : sim k a x) (hk : k ≤ 53) : sim 0 (PyMath.sqrt a) (PyMath.sqrt x) := congrArg PyMath.sqrt (h.toF hk)
theorem sim_sin (h : sim k a x) (hk : k ≤ 53) : sim 0 (PyMath.sin a) (PyMath.sin x) := congrArg PyMath.sin (h.toF hk)
theorem sim_cos (h : sim k a x) (hk : k ≤ 53) : sim 0 (PyMath.cos a) (PyMath.cos x) := congrArg PyMath.cos (h.toF hk)
theorem sim_tan (h : sim k a x) (hk : k ≤ 53) : sim 0 (PyMath.tan a) (PyMath.tan x) := congrArg PyMath.tan (h.toF hk)
theorem sim_acos (h : sim k a x) (hk : k ≤ 53) : sim 0 (PyMath.acos a) (PyMath.acos x) := congrArg PyMath.acos (h.toF hk)
theorem sim_asin (h : sim k a x) (hk : k ≤ 53) : sim 0 (PyMath.asin a) (PyMath.asin x) := congrArg PyMath.asin (h.toF hk)
theorem sim_atan (h : sim k a x) (hk : k ≤ 53) : sim 0 (PyMath.atan a) (PyMath.atan x) := congrArg PyMath.atan (h.toF hk)
theorem sim_exp (h : sim k a x) (hk : k ≤ 53) : sim 0 (PyMath.exp a) (PyMath.exp x) := congrArg PyMath.exp (h.toF hk)
theorem sim_log (h : sim k a x) (hk : k ≤ 53) : sim 0 (PyMath.log a) (PyMath.log x) := congrArg PyMath.log (h.toF hk)
theorem sim_powi (h : sim k a x) (hk : k ≤ 53) (n : ℤ) : sim 0 (PyMath.powi a n) (PyMath.powi x n) :=
  congrArg (fun z => PyMath.powi z n) (h.toF hk)
theorem sim_atan2 (h : sim k a x) (h' : sim l b y) (hk : max k l ≤ 53) : sim 0 (PyMath.atan2 a b) (PyMath.atan2 x y) :=
  congrArg₂ PyMath.atan2 (h.toF (by omega)) (h'.toF (by omega))
theorem sim_fmod (h : sim k a x) (h' : sim l b y) (hk : max k l ≤ 53) : sim 0 (PyMath.fmod a b) (PyMath.fmod x y) :=
  congrArg₂ PyMath.fmod (h.toF (by omega)) (h'.toF (by omega))
theorem sim_pi : sim 0 (PyMath.pi : PyNum lit) (PyMath.pi : FP double) := rfl

end

/-! ### Floats stay floats -/

/-- A `float`. -/
def IsFlt (a : PyNum lit) : Prop := ∃ y, a = flt y

theorem sim_isFlt (h : sim k a x) (h' : IsFlt a) : sim 0 a x := by
  obtain ⟨y, rfl⟩ := h'
  exact h
theorem isFlt_div (a b : PyNum lit) : IsFlt (a / b) := by cases a <;> cases b <;> exact ⟨_, rfl⟩
theorem IsFlt.add_right (h : IsFlt b) (a : PyNum lit) : IsFlt (a + b) := by
  obtain ⟨y, rfl⟩ := h
  cases a <;> exact ⟨_, rfl⟩
theorem IsFlt.add_left (h : IsFlt a) (b : PyNum lit) : IsFlt (a + b) := by
  obtain ⟨y, rfl⟩ := h
  cases b <;> exact ⟨_, rfl⟩
theorem IsFlt.sub_right (h : IsFlt b) (a : PyNum lit) : IsFlt (a - b) := by
  obtain ⟨y, rfl⟩ := h
  cases a <;> exact ⟨_, rfl⟩
theorem IsFlt.sub_left (h : IsFlt a) (b : PyNum lit) : IsFlt (a - b) := by
  obtain ⟨y, rfl⟩ := h
  cases b <;> exact ⟨_, rfl⟩
theorem IsFlt.mul_right (h : IsFlt b) (a : PyNum lit) : IsFlt (a * b) := by
  obtain ⟨y, rfl⟩ := h
  cases a <;> exact ⟨_, rfl⟩
theorem IsFlt.mul_left (h : IsFlt a) (b : PyNum lit) : IsFlt (a * b) := by
  obtain ⟨y, rfl⟩ := h
  cases b <;> exact ⟨_, rfl⟩

section
variable {c d : PyNum lit} {z w : FP double} {i j : ℕ}

theorem sim_divmul (h : sim k (a / b) (x / y)) (h' : sim l c z) (hk : l + k ≤ 53) : sim 0 (a / b * c) (x / y * z) :=
  sim_isFlt (sim_mul h h' (by omega)) ((isFlt_div a b).mul_left c)
theorem sim_muldiv (h : sim k (a / b) (x / y)) (h' : sim l c z) (hk : l + k ≤ 53) : sim 0 (c * (a / b)) (z * (x / y)) :=
  sim_isFlt (sim_mul h' h (by omega)) ((isFlt_div a b).mul_right c)
theorem sim_adddiv (h : sim k (a / b) (x / y)) (h' : sim l c z) (hk : max l k + 1 ≤ 53) : sim 0 (c + a / b) (z + x / y) :=
  sim_isFlt (sim_add h' h (by omega)) ((isFlt_div a b).add_right c)
theorem sim_divadd (h : sim k (a / b) (x / y)) (h' : sim l c z) (hk : max l k + 1 ≤ 53) : sim 0 (a / b + c) (x / y + z) :=
  sim_isFlt (sim_add h h' (by omega)) ((isFlt_div a b).add_left c)
theorem sim_subdiv (h : sim k (a / b) (x / y)) (h' : sim l c z) (hk : max l k + 1 ≤ 53) : sim 0 (c - a / b) (z - x / y) :=
  sim_isFlt (sim_sub h' h (by omega)) ((isFlt_div a b).sub_right c)
theorem sim_divsub (h : sim k (a / b) (x / y)) (h' : sim l c z) (hk : max l k + 1 ≤ 53) : sim 0 (a / b - c) (x / y - z) :=
  sim_isFlt (sim_sub h h' (by omega)) ((isFlt_div a b).sub_left c)
theorem sim_adddivmul (h : sim k (a / b * c) (x / y * z)) (h' : sim l d w) (hk : max l k + 1 ≤ 53) : sim 0 (d + a / b * c) (w + x / y * z) :=
  sim_isFlt (sim_add h' h (by omega)) (((isFlt_div a b).mul_left c).add_right d)

end

/-! ### Literals -/

theorem sim_num0 : sim 0 (num 0 : PyNum lit) (num 0 : FP double) := sim_num 0
theorem sim_num1 : sim 0 (num 1 : PyNum lit) (num 1 : FP double) := NumSim.mono (sim_num 1) (by norm_num)
theorem sim_num2 : sim 1 (num 2 : PyNum lit) (num 2 : FP double) := NumSim.mono (sim_num 2) ((Nat.clog_le_iff_le_pow (by norm_num)).mpr (by norm_num))
theorem sim_numS (n : ℕ) (h : n ≤ 1024) : sim 10 (num n : PyNum lit) (num n : FP double) :=
  NumSim.mono (sim_num n) ((Nat.clog_le_iff_le_pow (by norm_num)).mpr h)
theorem sim_numB (n : ℕ) (h : 1000 < n) : sim 0 (num n : PyNum lit) (num n : FP double) := by
  change sim _ (if lit = true ∧ n ≤ 1000 then int n else flt (n : FP double)) _
  rw [if_neg (by omega)]
  rfl

end PyNum

/-! ## The steps of a proof -/

section
variable {α β γ δ : Type} [NumSim α β] [NumSim γ δ] {k l : ℕ}

theorem sim_ite {c c' : Prop} [Decidable c] [Decidable c'] {a b : α} {x y : β} (hc : c ↔ c') (h : sim k a x) (h' : sim l b y) :
    sim (max k l) (if c then a else b) (if c' then x else y) := by
  by_cases h1 : c
  · rw [if_pos h1, if_pos (hc.mp h1)]; exact NumSim.mono h (le_max_left _ _)
  · rw [if_neg h1, if_neg (fun h2 => h1 (hc.mpr h2))]; exact NumSim.mono h' (le_max_right _ _)

theorem sim_decide {c c' : Prop} [Decidable c] [Decidable c'] (hc : c ↔ c') : sim 0 (decide c) (decide c') := decide_eq_decide.mpr hc
theorem sim_and {a b c d : Bool} (h : sim k a c) (h' : sim l b d) : sim 0 (a && b) (c && d) := congrArg₂ _ h h'
theorem sim_or {a b c d : Bool} (h : sim k a c) (h' : sim l b d) : sim 0 (a || b) (c || d) := congrArg₂ _ h h'
theorem sim_not {a c : Bool} (h : sim k a c) : sim 0 (!a) (!c) := congrArg _ h
theorem sim_bool (a : Bool) : sim 0 a a := rfl
theorem iff_of_sim {a c : Bool} (h : sim k a c) : a = true ↔ c = true := by rw [show a = c from h]
theorem sim_pair {a : α} {x : β} {b : γ} {y : δ} (h : sim k a x) (h' : sim l b y) : sim (max k l) (a, b) (x, y) :=
  ⟨NumSim.mono h (le_max_left _ _), NumSim.mono h' (le_max_right _ _)⟩
theorem sim_fst {a : α × γ} {x : β × δ} (h : sim k a x) : sim k a.1 x.1 := h.1
theorem sim_snd {a : α × γ} {x : β × δ} (h : sim k a x) : sim k a.2 x.2 := h.2
theorem sim_nil : sim 0 ([] : List α) ([] : List β) := List.Forall₂.nil
theorem sim_cons {a : α} {x : β} {b : List α} {y : List β} (h : sim k a x) (h' : sim l b y) : sim (max k l) (a :: b) (x :: y) :=
  List.Forall₂.cons (NumSim.mono h (le_max_left _ _)) (NumSim.mono h' (le_max_right _ _))
theorem sim_append {a : List α} {x : List β} {b : List α} {y : List β} (h : sim k a x) (h' : sim l b y) : sim (max k l) (a ++ b) (x ++ y) :=
  List.rel_append (NumSim.mono h (le_max_left _ _)) (NumSim.mono h' (le_max_right _ _))
theorem sim_some {a : α} {x : β} (h : sim k a x) : sim k (some a) (some x) := Option.Rel.some h
theorem sim_none : sim 0 (none : Option α) (none : Option β) := Option.Rel.none
theorem sim_ok {a : α} {x : β} (h : sim k a x) : sim k (Except.ok a : Except PyErr α) (Except.ok x : Except PyErr β) := ExceptRel.ok h
theorem sim_error (e : PyErr) : sim 0 (Except.error e : Except PyErr α) (Except.error e : Except PyErr β) := ExceptRel.error e
theorem sim_pure {a : α} {x : β} (h : sim k a x) : sim k (pure a : Except PyErr α) (pure x : Except PyErr β) := ExceptRel.ok h
theorem sim_bind {a : Except PyErr α} {x : Except PyErr β} {f : α → Except PyErr γ} {g : β → Except PyErr δ} (h : sim k a x)
    (h' : ∀ a x, sim k a x → sim l (f a) (g x)) : sim l (a >>= f) (x >>= g) := by
  cases h with
  | ok h => exact h' _ _ h
  | error e => exact ExceptRel.error e

end

section
variable {k l j : ℕ}

theorem sim_vec {a b : PyNum lit} {x y : FP double} {v w : Bool} (h : sim k a x) (h' : sim l b y) (hv : sim j v w) :
    sim (max k l) (⟨a, b, v⟩ : Vec (PyNum lit)) (⟨x, y, w⟩ : Vec (FP double)) :=
  ⟨NumSim.mono h (le_max_left _ _), NumSim.mono h' (le_max_right _ _), hv⟩
theorem sim_x {v : Vec (PyNum lit)} {w : Vec (FP double)} (h : sim k v w) : sim k v.x w.x := h.1
theorem sim_y {v : Vec (PyNum lit)} {w : Vec (FP double)} (h : sim k v w) : sim k v.y w.y := h.2.1
theorem sim_valid {v : Vec (PyNum lit)} {w : Vec (FP double)} (h : sim k v w) : sim 0 v.valid w.valid := h.2.2
theorem sim_angle {a : PyNum lit} {x : FP double} (h : sim k a x) : sim k (⟨a⟩ : AngleDeg (PyNum lit)) (⟨x⟩ : AngleDeg (FP double)) := h
theorem sim_deg {v : AngleDeg (PyNum lit)} {w : AngleDeg (FP double)} (h : sim k v w) : sim k v.deg w.deg := h
theorem sim_line {a b c : PyNum lit} {x y z : FP double} (h : sim k a x) (h' : sim l b y) (hv : sim j c z) :
    sim (max (max k l) j) (⟨a, b, c⟩ : Line (PyNum lit)) (⟨x, y, z⟩ : Line (FP double)) :=
  ⟨NumSim.mono h (by omega), NumSim.mono h' (by omega), NumSim.mono hv (by omega)⟩
theorem sim_la {v : Line (PyNum lit)} {w : Line (FP double)} (h : sim k v w) : sim k v.a w.a := h.1
theorem sim_lb {v : Line (PyNum lit)} {w : Line (FP double)} (h : sim k v w) : sim k v.b w.b := h.2.1
theorem sim_lc {v : Line (PyNum lit)} {w : Line (FP double)} (h : sim k v w) : sim k v.c w.c := h.2.2
theorem sim_tri {a b c : Vec (PyNum lit)} {x y z : Vec (FP double)} (h : sim k a x) (h' : sim l b y) (hv : sim j c z) :
    sim (max (max k l) j) (⟨a, b, c⟩ : Tri (PyNum lit)) (⟨x, y, z⟩ : Tri (FP double)) :=
  ⟨NumSim.mono h (by omega), NumSim.mono h' (by omega), NumSim.mono hv (by omega)⟩
theorem sim_ta {v : Tri (PyNum lit)} {w : Tri (FP double)} (h : sim k v w) : sim k v.a w.a := h.1
theorem sim_tb {v : Tri (PyNum lit)} {w : Tri (FP double)} (h : sim k v w) : sim k v.b w.b := h.2.1
theorem sim_tc {v : Tri (PyNum lit)} {w : Tri (FP double)} (h : sim k v w) : sim k v.c w.c := h.2.2
theorem sim_seg {a b : Vec (PyNum lit)} {x y : Vec (FP double)} (h : sim k a x) (h' : sim l b y) :
    sim (max k l) (⟨a, b⟩ : Seg (PyNum lit)) (⟨x, y⟩ : Seg (FP double)) := ⟨NumSim.mono h (le_max_left _ _), NumSim.mono h' (le_max_right _ _)⟩
theorem sim_origin {v : Seg (PyNum lit)} {w : Seg (FP double)} (h : sim k v w) : sim k v.origin w.origin := h.1
theorem sim_terminal {v : Seg (PyNum lit)} {w : Seg (FP double)} (h : sim k v w) : sim k v.terminal w.terminal := h.2
theorem sim_ray {a : Vec (PyNum lit)} {x : Vec (FP double)} {b : AngleDeg (PyNum lit)} {y : AngleDeg (FP double)} (h : sim k a x) (h' : sim l b y) :
    sim (max k l) (⟨a, b⟩ : Ray (PyNum lit)) (⟨x, y⟩ : Ray (FP double)) := ⟨NumSim.mono h (le_max_left _ _), NumSim.mono h' (le_max_right _ _)⟩
theorem sim_rorigin {v : Ray (PyNum lit)} {w : Ray (FP double)} (h : sim k v w) : sim k v.origin w.origin := h.1
theorem sim_rdir {v : Ray (PyNum lit)} {w : Ray (FP double)} (h : sim k v w) : sim k v.dir w.dir := h.2
theorem sim_circle {a : Vec (PyNum lit)} {x : Vec (FP double)} {b : PyNum lit} {y : FP double} (h : sim k a x) (h' : sim l b y) :
    sim (max k l) (⟨a, b⟩ : Circle (PyNum lit)) (⟨x, y⟩ : Circle (FP double)) := ⟨NumSim.mono h (le_max_left _ _), NumSim.mono h' (le_max_right _ _)⟩
theorem sim_center {v : Circle (PyNum lit)} {w : Circle (FP double)} (h : sim k v w) : sim k v.center w.center := h.1
theorem sim_radius {v : Circle (PyNum lit)} {w : Circle (FP double)} (h : sim k v w) : sim k v.radius w.radius := h.2
theorem sim_size {a b : PyNum lit} {x y : FP double} (h : sim k a x) (h' : sim l b y) :
    sim (max k l) (⟨a, b⟩ : Size (PyNum lit)) (⟨x, y⟩ : Size (FP double)) := ⟨NumSim.mono h (le_max_left _ _), NumSim.mono h' (le_max_right _ _)⟩
theorem sim_length {v : Size (PyNum lit)} {w : Size (FP double)} (h : sim k v w) : sim k v.length w.length := h.1
theorem sim_width {v : Size (PyNum lit)} {w : Size (FP double)} (h : sim k v w) : sim k v.width w.width := h.2
theorem sim_rect {a : Vec (PyNum lit)} {x : Vec (FP double)} {b : Size (PyNum lit)} {y : Size (FP double)} (h : sim k a x) (h' : sim l b y) :
    sim (max k l) (⟨a, b⟩ : Rect (PyNum lit)) (⟨x, y⟩ : Rect (FP double)) := ⟨NumSim.mono h (le_max_left _ _), NumSim.mono h' (le_max_right _ _)⟩
theorem sim_topLeft {v : Rect (PyNum lit)} {w : Rect (FP double)} (h : sim k v w) : sim k v.topLeft w.topLeft := h.1
theorem sim_rsize {v : Rect (PyNum lit)} {w : Rect (FP double)} (h : sim k v w) : sim k v.size w.size := h.2
theorem sim_poly {a : List (Vec (PyNum lit))} {x : List (Vec (FP double))} (h : sim k a x) :
    sim k (⟨a⟩ : Poly (PyNum lit)) (⟨x⟩ : Poly (FP double)) := h
theorem sim_vertices {v : Poly (PyNum lit)} {w : Poly (FP double)} (h : sim k v w) : sim k v.vertices w.vertices := h

end

theorem sim_beq {k l : ℕ} {a b : PyNum lit} {x y : FP double} (h : sim k a x) (h' : sim l b y) : sim 0 (a == b) (x == y) := PyNum.sim_beq h h'

theorem sim_nat (n : ℕ) : sim 0 n n := rfl
theorem sim_natAdd {k : ℕ} {n m : ℕ} (h : sim k n m) (a : ℕ) : sim 0 (n + a) (m + a) := congrArg (· + a) (show n = m from h)
theorem sim_natSub {k : ℕ} {n m : ℕ} (h : sim k n m) (a : ℕ) : sim 0 (n - a) (m - a) := congrArg (· - a) (show n = m from h)
theorem natLt_of_sim {k : ℕ} {n m : ℕ} (h : sim k n m) (a : ℕ) : n < a ↔ m < a := by rw [show n = m from h]
theorem natLt_of_sim' {k : ℕ} {n m : ℕ} (h : sim k n m) (a : ℕ) : a < n ↔ a < m := by rw [show n = m from h]
theorem natEq_of_sim {k : ℕ} {n m : ℕ} (h : sim k n m) (a : ℕ) : n = a ↔ m = a := by rw [show n = m from h]

section
open Lean Meta Elab Tactic

/-- The lemmas about the basic operations; the lemma about `A.f` is `sim_A_f`. -/
def simTable : Name → List Name
  | ``HAdd.hAdd => [``PyNum.sim_adddiv, ``PyNum.sim_divadd, ``PyNum.sim_adddivmul, ``PyNum.sim_add, ``sim_natAdd]
  | ``HSub.hSub => [``PyNum.sim_subdiv, ``PyNum.sim_divsub, ``PyNum.sim_sub, ``sim_natSub] | ``HMul.hMul => [``PyNum.sim_divmul, ``PyNum.sim_muldiv, ``PyNum.sim_mul]
  | ``OfNat.ofNat => [``sim_nat]
  | ``HDiv.hDiv => [``PyNum.sim_div] | ``Neg.neg => [``PyNum.sim_neg]
  | ``num => [``PyNum.sim_num0, ``PyNum.sim_num1, ``PyNum.sim_num2, ``PyNum.sim_numS, ``PyNum.sim_numB]
  | ``PyMath.sqrt => [``PyNum.sim_sqrt] | ``PyMath.sin => [``PyNum.sim_sin] | ``PyMath.cos => [``PyNum.sim_cos]
  | ``PyMath.tan => [``PyNum.sim_tan] | ``PyMath.acos => [``PyNum.sim_acos] | ``PyMath.asin => [``PyNum.sim_asin]
  | ``PyMath.atan => [``PyNum.sim_atan] | ``PyMath.exp => [``PyNum.sim_exp] | ``PyMath.log => [``PyNum.sim_log]
  | ``PyMath.powi => [``PyNum.sim_powi] | ``PyMath.atan2 => [``PyNum.sim_atan2] | ``PyMath.fmod => [``PyNum.sim_fmod]
  | ``PyMath.pi => [``PyNum.sim_pi]
  | ``ite => [``sim_ite] | ``Decidable.decide => [``sim_decide] | ``and => [``sim_and] | ``or => [``sim_or] | ``not => [``sim_not]
  | ``true => [``sim_bool] | ``false => [``sim_bool] | ``BEq.beq => [``sim_beq]
  | ``Prod.mk => [``sim_pair] | ``Prod.fst => [``sim_fst] | ``Prod.snd => [``sim_snd]
  | ``List.nil => [``sim_nil] | ``List.cons => [``sim_cons] | ``HAppend.hAppend => [``sim_append]
  | ``Option.some => [``sim_some] | ``Option.none => [``sim_none] | ``Except.ok => [``sim_ok] | ``Except.error => [``sim_error]
  | ``Pure.pure => [``sim_pure] | ``Bind.bind => [``sim_bind]
  | ``Vec.mk => [``sim_vec] | ``Vec.x => [``sim_x] | ``Vec.y => [``sim_y] | ``Vec.valid => [``sim_valid]
  | ``AngleDeg.mk => [``sim_angle] | ``AngleDeg.deg => [``sim_deg]
  | ``Line.mk => [``sim_line] | ``Line.a => [``sim_la] | ``Line.b => [``sim_lb] | ``Line.c => [``sim_lc]
  | ``Tri.mk => [``sim_tri] | ``Tri.a => [``sim_ta] | ``Tri.b => [``sim_tb] | ``Tri.c => [``sim_tc]
  | ``Seg.mk => [``sim_seg] | ``Seg.origin => [``sim_origin] | ``Seg.terminal => [``sim_terminal]
  | ``Ray.mk => [``sim_ray] | ``Ray.origin => [``sim_rorigin] | ``Ray.dir => [``sim_rdir]
  | ``Circle.mk => [``sim_circle] | ``Circle.center => [``sim_center] | ``Circle.radius => [``sim_radius]
  | ``Size.mk => [``sim_size] | ``Size.length => [``sim_length] | ``Size.width => [``sim_width]
  | ``Rect.mk => [``sim_rect] | ``Rect.topLeft => [``sim_topLeft] | ``Rect.size => [``sim_rsize]
  | ``Poly.mk => [``sim_poly] | ``Poly.vertices => [``sim_vertices]
  | ``And => [``and_congr] | ``Or => [``or_congr] | ``Not => [``not_congr] | ``LT.lt => [``PyNum.sim_lt, ``natLt_of_sim, ``natLt_of_sim'] | ``LE.le => [``PyNum.sim_le]
  | ``Eq => [``iff_of_sim, ``natEq_of_sim]
  | n => [(n.replacePrefix `PyrusGeom .anonymous).components.foldl (fun s c => s.appendAfter ("_" ++ c.toString)) `PyrusGeom.sim]

/-- One step of a simulation proof: the lemma about the outermost operation of the first of the two terms. -/
elab "sim_step" : tactic => withMainContext do
  let g ← getMainGoal
  let t ← instantiateMVars (← g.getType)
  let a? := if t.isAppOfArity ``NumSim.sim 6 then some (t.getArg! 4) else if t.isAppOfArity ``Iff 2 then some (t.getArg! 0) else none
  let some a := a? | throwError "no step"
  if ← g.withContext (withReducible g.assumptionCore) then
    replaceMainGoal []
  else
    let some n := a.consumeMData.getAppFn.constName? | replaceMainGoal (← withReducible (g.apply (mkConst ``sim_bool)))
    for lem in simTable n do
      let s ← saveState
      try
        let e ← mkConstWithFreshMVarLevels lem
        let mut gs ← withReducible (g.apply e)
        gs ← gs.flatMapM fun g' => do
          if (← instantiateMVars (← g'.getType)).isForall then return [(← g'.introN 3).2] else return [g']
        if lem == ``PyNum.sim_numS || lem == ``PyNum.sim_numB then
          let r ← evalTacticAt (← `(tactic| omega)) gs.head!
          gs := r ++ gs.tail!
        replaceMainGoal gs
        return
      catch _ => s.restore
    throwError "no step for {n}"

end

/-- Proves that a definition, unfolded, is simulated. -/
macro "sim_tac" : tactic => `(tactic| (apply NumSim.mono; (repeat' sim_step); all_goals omega))

section
variable {k l : ℕ} {a b : PyNum lit} {x y : FP double}

theorem sim_fabs (h : sim k a x) : sim k (fabs a) (fabs x) := by unfold fabs; sim_tac
theorem sim_sq (h : sim k a x) (hk : 2 * k ≤ 53) : sim (2 * k) (sq a) (sq x) := by unfold sq; sim_tac
theorem sim_pyMin (h : sim k a x) (h' : sim l b y) : sim (max k l) (pyMin a b) (pyMin x y) := by unfold pyMin; sim_tac
theorem sim_EPSILON : sim 0 (EPSILON : PyNum lit) (EPSILON : FP double) := by unfold EPSILON; sim_tac

end

end PyrusGeom
