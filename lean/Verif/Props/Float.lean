import Verif.Lemmas.Float
import Verif.Lemmas.Angle
import Verif.Model.Polygon
import Mathlib.Order.Bounds.Basic

/-!
# C96, C97: rounded arithmetic

`FP ρ` is the number type whose operations are rounded by `ρ`; `double` is IEEE binary64 rounding (without overflow).
-/

namespace PyrusGeom
open Spec AngleDeg

variable {ρ : Rounding}

theorem Rounding.zero (ρ : Rounding) : ρ.f 0 = 0 := by simpa using ρ.int 0 (by norm_num)

theorem Rounding.n180 (ρ : Rounding) : ρ.f 180 = 180 := by simpa using ρ.int 180 (by norm_num)

theorem Rounding.n360 (ρ : Rounding) : ρ.f 360 = 360 := by simpa using ρ.int 360 (by norm_num)

theorem Rounding.nonneg (ρ : Rounding) {x : ℝ} (h : 0 ≤ x) : 0 ≤ ρ.f x := by
  have := ρ.mono h
  rwa [ρ.zero] at this

theorem Rounding.le_180 (ρ : Rounding) {x : ℝ} (h : x ≤ 180) : ρ.f x ≤ 180 := by
  have := ρ.mono h
  rwa [ρ.n180] at this

theorem Rounding.nonpos (ρ : Rounding) {x : ℝ} (h : x ≤ 0) : ρ.f x ≤ 0 := by
  have := ρ.mono h
  rwa [ρ.zero] at this

theorem Rounding.ge_180 (ρ : Rounding) {x : ℝ} (h : -180 ≤ x) : -180 ≤ ρ.f x := by
  have := ρ.mono h
  rwa [ρ.odd, ρ.n180] at this

/-! ## C96 -/

theorem fp_normalDeg (d : FP ρ) : (normalDeg d).val =
    (let d := if d.val < -360 ∨ 360 < d.val then PyMath.fmod d.val 360 else d.val
     let d := if d < -180 then ρ.f (d + 360) else d
     if 180 < d then ρ.f (d - 360) else d) := by
  have e180 : (num 180 : FP ρ).val = 180 := (ρ.int 180 (by norm_num)).trans (by norm_num)
  have e360 : (num 360 : FP ρ).val = 360 := (ρ.int 360 (by norm_num)).trans (by norm_num)
  have ef : (PyMath.fmod d (num 360 : FP ρ)).val = PyMath.fmod d.val 360 := by
    change PyMath.fmod d.val (num 360 : FP ρ).val = _
    rw [e360]
  unfold normalDeg
  simp only [FP.lt_def, FP.neg_val, e180, e360]
  split_ifs <;> simp_all

/-- The result of `normal()` is in [-180, 180], whatever the rounding. -/
theorem C96_normal (ρ : Rounding) (d : FP ρ) : -180 ≤ (normalDeg d).val ∧ (normalDeg d).val ≤ 180 := by
  rw [fp_normalDeg]
  set e := if d.val < -360 ∨ 360 < d.val then PyMath.fmod d.val 360 else d.val with he
  have hb : -360 ≤ e ∧ e ≤ 360 := by
    rw [he]
    split_ifs with h
    · exact ⟨(fmod_bounds _).1.le, (fmod_bounds _).2.le⟩
    · push Not at h; exact h
  clear_value e
  simp only
  by_cases h1 : e < -180
  · have a1 := ρ.nonneg (x := e + 360) (by linarith)
    have a2 := ρ.le_180 (x := e + 360) (by linarith)
    rw [if_pos h1, if_neg (by linarith)]
    constructor <;> linarith
  · rw [if_neg h1]
    split_ifs with h2
    · have a1 := ρ.nonpos (x := e - 360) (by linarith)
      have a2 := ρ.ge_180 (x := e - 360) (by linarith)
      constructor <;> linarith
    · constructor <;> linarith

/-- A call on an `AngleDeg`: the mutating methods, and the operators, whose result becomes the current object. -/
inductive FAngleOp (ρ : Rounding) where
  | setDegree (d : FP ρ) | setAngle (b : AngleDeg (FP ρ)) | reverse | reverseAngle | copy | neg
  | iaddNum (d : FP ρ) | iadd (b : AngleDeg (FP ρ)) | isubNum (d : FP ρ) | isub (b : AngleDeg (FP ρ))
  | imul (s : FP ρ) | idiv (s : FP ρ)
  | add (b : AngleDeg (FP ρ)) | addNum (d : FP ρ) | sub (b : AngleDeg (FP ρ)) | subNum (d : FP ρ)
  | mul (s : FP ρ) | floordiv (s : FP ρ)

/-- Effect of a call, by the model. -/
noncomputable def FAngleOp.run (a : AngleDeg (FP ρ)) : FAngleOp ρ → Except PyErr (AngleDeg (FP ρ))
  | .setDegree d => .ok (a.setDegree d)
  | .setAngle b => .ok (a.setAngle b)
  | .reverse => .ok a.reverse
  | .reverseAngle => .ok a.reverseAngle
  | .copy => .ok a.copy
  | .neg => .ok a.neg
  | .iaddNum d => .ok (a.iaddNum d)
  | .iadd b => .ok (a.iadd b)
  | .isubNum d => .ok (a.isubNum d)
  | .isub b => .ok (a.isub b)
  | .imul s => .ok (a.imul s)
  | .idiv s => a.idiv s
  | .add b => .ok (a.add b)
  | .addNum d => .ok (a.addNum d)
  | .sub b => .ok (a.sub b)
  | .subNum d => .ok (a.subNum d)
  | .mul s => .ok (a.mul s)
  | .floordiv s => a.floordiv s

/-- A sequence of calls; stops at the first exception. -/
noncomputable def fAngleHistory (a : AngleDeg (FP ρ)) : List (FAngleOp ρ) → Except PyErr (AngleDeg (FP ρ))
  | [] => .ok a
  | op :: ops => op.run a >>= fun b => fAngleHistory b ops

/-- The stored degree is in range. -/
def FNormal (a : AngleDeg (FP ρ)) : Prop := -180 ≤ a.deg.val ∧ a.deg.val ≤ 180

theorem fp_reverse {a : AngleDeg (FP ρ)} (h : FNormal a) : FNormal a.reverse := by
  have e0 : (num 0 : FP ρ).val = 0 := by simp [ρ.zero]
  have e180 : (num 180 : FP ρ).val = 180 := (ρ.int 180 (by norm_num)).trans (by norm_num)
  obtain ⟨h1, h2⟩ := h
  unfold AngleDeg.reverse
  split_ifs with h0
  · rw [FP.le_def, e0] at h0
    have a1 := ρ.nonneg (x := 180 - a.deg.val) (by linarith)
    have a2 := ρ.le_180 (x := 180 - a.deg.val) (by linarith)
    refine ⟨?_, ?_⟩ <;> simp only [FP.neg_val, FP.sub_val, e180] <;> linarith
  · rw [FP.le_def, e0] at h0
    have a1 := ρ.nonneg (x := 180 + a.deg.val) (by linarith)
    have a2 := ρ.le_180 (x := 180 + a.deg.val) (by linarith)
    refine ⟨?_, ?_⟩ <;> simp only [FP.add_val, e180] <;> linarith

theorem fAngleOp_normal {a b : AngleDeg (FP ρ)} (h : FNormal a) {op : FAngleOp ρ} (hr : op.run a = .ok b) :
    FNormal b := by
  cases op with
  | idiv s =>
    simp only [FAngleOp.run, AngleDeg.idiv, pyDiv] at hr
    split at hr
    · cases hr
    · cases hr; exact C96_normal ρ _
  | floordiv s =>
    simp only [FAngleOp.run, AngleDeg.floordiv, pyDiv] at hr
    split at hr
    · cases hr
    · cases hr; exact C96_normal ρ _
  | reverse => cases hr; exact fp_reverse h
  | reverseAngle => cases hr; exact fp_reverse (C96_normal ρ _)
  | _ => cases hr; exact C96_normal ρ _

/-- **C96.** For every rounding, every start value and every sequence of calls: if it returns, the stored degree (which
`degree_()` returns) and `degree()` are in [-180, 180]. -/
theorem C96_history (ρ : Rounding) (d : FP ρ) (ops : List (FAngleOp ρ)) (r : AngleDeg (FP ρ))
    (hr : fAngleHistory (ofNum d) ops = .ok r) :
    (-180 ≤ r.degree_.val ∧ r.degree_.val ≤ 180) ∧ -180 ≤ r.degree.val ∧ r.degree.val ≤ 180 := by
  have key : ∀ (ops : List (FAngleOp ρ)) (a : AngleDeg (FP ρ)), FNormal a →
      ∀ r, fAngleHistory a ops = .ok r → FNormal r := by
    intro ops
    induction ops with
    | nil => intro a ha r hr; cases hr; exact ha
    | cons op ops ih =>
      intro a ha r hr
      cases ho : op.run a with
      | error e => simp [fAngleHistory, ho, bind, Except.bind] at hr
      | ok b =>
        simp only [fAngleHistory, ho, bind, Except.bind] at hr
        exact ih b (fAngleOp_normal ha ho) r hr
  exact ⟨key ops _ (C96_normal ρ d) r hr, C96_normal ρ _⟩

/-- Only a division by zero raises. -/
theorem C96_returns (d : FP ρ) (ops : List (FAngleOp ρ))
    (h : ∀ s : FP ρ, FAngleOp.idiv s ∈ ops ∨ FAngleOp.floordiv s ∈ ops → s.val ≠ 0) :
    ∃ r, fAngleHistory (ofNum d) ops = .ok r := by
  generalize ofNum d = a
  induction ops generalizing a with
  | nil => exact ⟨a, rfl⟩
  | cons op ops ih =>
    have hrun : ∃ b, op.run a = .ok b := by
      cases op with
      | idiv s =>
        have := h s (.inl (by simp))
        refine ⟨⟨normalDeg (a.deg / s)⟩, ?_⟩
        have hne : (s == num 0) = false := by
          change decide (s.val = ρ.f ((0 : ℕ) : ℝ)) = false
          rw [Nat.cast_zero, ρ.zero]; simpa using this
        simp [FAngleOp.run, AngleDeg.idiv, pyDiv, hne, bind, Except.bind, pure, Except.pure]
      | floordiv s =>
        have := h s (.inr (by simp))
        refine ⟨ofNum (a.deg / s), ?_⟩
        have hne : (s == num 0) = false := by
          change decide (s.val = ρ.f ((0 : ℕ) : ℝ)) = false
          rw [Nat.cast_zero, ρ.zero]; simpa using this
        simp [FAngleOp.run, AngleDeg.floordiv, pyDiv, hne, bind, Except.bind, pure, Except.pure]
      | _ => exact ⟨_, rfl⟩
    obtain ⟨b, hb⟩ := hrun
    obtain ⟨r, hr⟩ := ih (fun s hs => h s (hs.imp (List.mem_cons_of_mem _) (List.mem_cons_of_mem _))) b
    exact ⟨r, by simp [fAngleHistory, hb, bind, Except.bind, hr]⟩

/-! ### Double precision -/

theorem rtrunc_abs_le (y : ℝ) : |y - rtrunc y| ≤ |y| := by
  unfold rtrunc
  split_ifs with h
  · have h1 := Int.floor_le y
    have h2 : (0 : ℝ) ≤ ⌊y⌋ := by exact_mod_cast Int.floor_nonneg.mpr h
    rw [abs_of_nonneg h, abs_of_nonneg (by linarith)]
    linarith
  · push Not at h
    have h1 := Int.le_ceil y
    have h2 : ((⌈y⌉ : ℤ) : ℝ) ≤ 0 := by exact_mod_cast Int.ceil_le.mpr (by simpa using h.le)
    rw [abs_of_neg h, abs_of_nonpos (by linarith)]
    linarith

/-- `fmod(x, 360)` of a double is a double, so "exact" is a possible specification. -/
theorem double_fmod {x : ℝ} (h : IsDouble x) : IsDouble (PyMath.fmod x 360) := by
  obtain ⟨m, k, hm, hk, rfl⟩ := h
  set x : ℝ := m * (2 : ℝ) ^ k with hx
  have hb := fmod_bounds x
  rw [fmod_real] at hb ⊢
  set t := rtrunc (x / 360) with ht
  have hle : |x - 360 * (t : ℝ)| ≤ |x| := by
    have h := rtrunc_abs_le (x / 360)
    rw [← ht] at h
    have e1 : x - 360 * (t : ℝ) = 360 * (x / 360 - t) := by ring
    have e2 : |x| = 360 * |x / 360| := by rw [abs_div, abs_of_pos (by norm_num : (0 : ℝ) < 360)]; ring
    rw [e1, abs_mul, abs_of_pos (by norm_num : (0 : ℝ) < 360), e2]
    linarith
  clear_value t
  rcases le_or_gt 0 k with hk0 | hk0
  · have e : x - 360 * (t : ℝ) = ((m * 2 ^ k.toNat - 360 * t : ℤ) : ℝ) := by
      push_cast
      rw [hx, ← zpow_natCast, Int.toNat_of_nonneg hk0]
    rw [e] at hb ⊢
    refine isDouble_int ?_
    rw [abs_le]
    have h1 : -360 < m * 2 ^ k.toNat - 360 * t := by exact_mod_cast hb.1
    have h2 : m * 2 ^ k.toNat - 360 * t < 360 := by exact_mod_cast hb.2
    constructor
    · refine le_trans ?_ h1.le; norm_num
    · refine h2.le.trans ?_; norm_num
  · have e : x - 360 * (t : ℝ) = ((m - 360 * t * 2 ^ (-k).toNat : ℤ) : ℝ) * (2 : ℝ) ^ k := by
      push_cast
      rw [hx, ← zpow_natCast, Int.toNat_of_nonneg (by omega), sub_mul, mul_assoc (360 * (t : ℝ)), ← zpow_add₀ two_ne_zero]
      simp
    rw [e] at hle ⊢
    refine ⟨_, k, ?_, hk, rfl⟩
    rw [hx, abs_mul, abs_mul] at hle
    have hp : (0 : ℝ) < |(2 : ℝ) ^ k| := by positivity
    have := le_of_mul_le_mul_right hle hp
    have h' : |m - 360 * t * 2 ^ (-k).toNat| ≤ |m| := by exact_mod_cast this
    exact h'.trans hm

theorem isDouble_360 : IsDouble 360 := by simpa using isDouble_nat (n := 360) (by norm_num)

theorem isDouble_180 : IsDouble 180 := by simpa using isDouble_nat (n := 180) (by norm_num)

/-- **C96** (exactness) In double precision normalisation makes no rounding error at all: for every double, `normal()`
gives the exact value, which is a double. -/
theorem C96_double_exact {d : ℝ} (h : IsDouble d) :
    (normalDeg (⟨d⟩ : FP double)).val = normalDeg d ∧ IsDouble (normalDeg d) := by
  rw [fp_normalDeg, normalDeg_real]
  set e := if d < -360 ∨ 360 < d then PyMath.fmod d 360 else d with he
  have hb : -360 ≤ e ∧ e ≤ 360 := by
    rw [he]
    split_ifs with h
    · exact ⟨(fmod_bounds _).1.le, (fmod_bounds _).2.le⟩
    · push Not at h; exact h
  have hd : IsDouble e := by
    rw [he]
    split_ifs
    · exact double_fmod h
    · exact h
  clear_value e
  simp only
  have hplus : e < -180 → IsDouble (e + 360) := by
    intro h1
    have := (sterbenz hd.neg isDouble_360 (by linarith) (by linarith)).neg
    rwa [neg_sub, sub_neg_eq_add, add_comm] at this
  have hminus : 180 < e → IsDouble (e - 360) := fun h1 => sterbenz hd isDouble_360 (by linarith) (by linarith)
  by_cases h1 : e < -180
  · have hr : double.f (e + 360) = e + 360 := rne_of_isDouble (hplus h1)
    rw [if_pos h1, if_pos h1, hr, if_neg (by linarith), if_neg (by linarith)]
    exact ⟨rfl, hplus h1⟩
  · rw [if_neg h1, if_neg h1]
    split_ifs with h2
    · exact ⟨rne_of_isDouble (hminus h2), hminus h2⟩
    · exact ⟨rfl, hd⟩

/-- `AngleDeg(d).degree()` of a double is exactly congruent to `d` modulo 360. -/
theorem C96_double_congruent {d : ℝ} (h : IsDouble d) :
    AngleEq (ofNum (⟨d⟩ : FP double)).degree.val d := by
  have e1 := C96_double_exact h
  have e2 := C96_double_exact e1.2
  have : (ofNum (⟨d⟩ : FP double)).deg = ⟨normalDeg d⟩ := FP.ext e1.1
  unfold AngleDeg.degree
  rw [this]
  change AngleEq (normalDeg (⟨normalDeg d⟩ : FP double)).val d
  rw [e2.1]
  have a1 := ofNum_angleEq d
  have a2 := ofNum_angleEq (normalDeg d)
  exact a2.trans a1

/-- In double precision `a += d` is correct modulo 360 up to the error of the one rounded addition. -/
theorem C96_double_iadd {a d : ℝ} :
    ∃ e, |e| ≤ ulp (a + d) / 2 ∧
      AngleEq ((⟨⟨a⟩⟩ : AngleDeg (FP double)).iaddNum ⟨d⟩).degree.val (a + d + e) := by
  refine ⟨rne (a + d) - (a + d), rne_error _, ?_⟩
  have := C96_double_congruent (isDouble_rne (a + d))
  have h2 : ((⟨⟨a⟩⟩ : AngleDeg (FP double)).iaddNum ⟨d⟩) = ofNum (⟨rne (a + d)⟩ : FP double) := rfl
  rw [h2]
  convert this using 1
  ring

/-- Non-vacuity: with double rounding, 350 + 20 gives 10. -/
example : ((ofNum (⟨350⟩ : FP double)).iaddNum ⟨20⟩).degree.val = 10 := by
  have d350 : IsDouble 350 := by simpa using isDouble_nat (n := 350) (by norm_num)
  have e1 : (ofNum (⟨350⟩ : FP double)).deg = ⟨-10⟩ := by
    refine FP.ext ?_
    change (normalDeg (⟨350⟩ : FP double)).val = _
    rw [(C96_double_exact d350).1, normalDeg_real]; norm_num
  have e2 : ((ofNum (⟨350⟩ : FP double)).iaddNum ⟨20⟩) = ofNum (⟨10⟩ : FP double) := by
    have : (⟨-10⟩ : FP double) + ⟨20⟩ = ⟨10⟩ := by
      refine FP.ext ?_
      change rne (-10 + 20) = 10
      rw [show (-10 + 20 : ℝ) = ((10 : ℕ) : ℝ) by norm_num, rne_of_isDouble (isDouble_nat (by norm_num))]; norm_num
    unfold AngleDeg.iaddNum
    rw [e1, this]; rfl
  have d10 : IsDouble 10 := by simpa using isDouble_nat (n := 10) (by norm_num)
  have e3 : (ofNum (⟨10⟩ : FP double)).deg = ⟨10⟩ := by
    refine FP.ext ?_
    change (normalDeg (⟨10⟩ : FP double)).val = _
    rw [(C96_double_exact d10).1, normalDeg_real]; norm_num
  rw [e2]
  unfold AngleDeg.degree
  rw [e3, e3]

/-! ## C97 -/

theorem fp_foldl_updMin (l : List (FP ρ)) (a : FP ρ) :
    ∃ r, l.foldl Poly.updMin (some a) = some r ∧ (r = a ∨ r ∈ l) ∧ r.val ≤ a.val ∧ ∀ x ∈ l, r.val ≤ x.val := by
  induction l generalizing a with
  | nil => exact ⟨a, rfl, .inl rfl, le_rfl, by simp⟩
  | cons b l ih =>
    by_cases h : b.val < a.val
    · obtain ⟨r, h1, h2, h3, h4⟩ := ih b
      refine ⟨r, ?_, ?_, h3.trans h.le, ?_⟩
      · rw [List.foldl_cons, Poly.updMin, if_pos (by exact h), h1]
      · rcases h2 with rfl | h2
        · exact .inr (by simp)
        · exact .inr (List.mem_cons_of_mem _ h2)
      · intro x hx
        rcases List.mem_cons.mp hx with rfl | hx
        · exact h3
        · exact h4 x hx
    · obtain ⟨r, h1, h2, h3, h4⟩ := ih a
      refine ⟨r, ?_, ?_, h3, ?_⟩
      · rw [List.foldl_cons, Poly.updMin, if_neg (by exact h), h1]
      · exact h2.imp id (List.mem_cons_of_mem _)
      · intro x hx
        rcases List.mem_cons.mp hx with rfl | hx
        · exact h3.trans (not_lt.mp h)
        · exact h4 x hx

theorem fp_foldl_updMax (l : List (FP ρ)) (a : FP ρ) :
    ∃ r, l.foldl Poly.updMax (some a) = some r ∧ (r = a ∨ r ∈ l) ∧ a.val ≤ r.val ∧ ∀ x ∈ l, x.val ≤ r.val := by
  induction l generalizing a with
  | nil => exact ⟨a, rfl, .inl rfl, le_rfl, by simp⟩
  | cons b l ih =>
    by_cases h : a.val < b.val
    · obtain ⟨r, h1, h2, h3, h4⟩ := ih b
      refine ⟨r, ?_, ?_, h.le.trans h3, ?_⟩
      · rw [List.foldl_cons, Poly.updMax, if_pos (by exact h), h1]
      · rcases h2 with rfl | h2
        · exact .inr (by simp)
        · exact .inr (List.mem_cons_of_mem _ h2)
      · intro x hx
        rcases List.mem_cons.mp hx with rfl | hx
        · exact h3
        · exact h4 x hx
    · obtain ⟨r, h1, h2, h3, h4⟩ := ih a
      refine ⟨r, ?_, ?_, h3, ?_⟩
      · rw [List.foldl_cons, Poly.updMax, if_neg (by exact h), h1]
      · exact h2.imp id (List.mem_cons_of_mem _)
      · intro x hx
        rcases List.mem_cons.mp hx with rfl | hx
        · exact (not_lt.mp h).trans h3
        · exact h4 x hx

theorem fp_foldl_bounds (vs : List (Vec (FP ρ))) (b : Poly.Bounds (FP ρ)) :
    vs.foldl Poly.boundsStep b = ⟨(vs.map Vec.x).foldl Poly.updMin b.xMin, (vs.map Vec.x).foldl Poly.updMax b.xMax,
      (vs.map Vec.y).foldl Poly.updMin b.yMin, (vs.map Vec.y).foldl Poly.updMax b.yMax⟩ := by
  induction vs generalizing b with
  | nil => rfl
  | cons v vs ih => rw [List.foldl_cons, ih]; rfl

/-- The x coordinates of the vertices. -/
def Poly.xs (p : Poly (FP ρ)) : Set ℝ := {x | ∃ v ∈ p.vertices, v.x.val = x}

/-- The y coordinates of the vertices. -/
def Poly.ys (p : Poly (FP ρ)) : Set ℝ := {y | ∃ v ∈ p.vertices, v.y.val = y}

/-- The box computed with rounding. -/
theorem fp_boundingBox (p : Poly (FP ρ)) (h : p.vertices ≠ []) :
    ∃ (r : Rect (FP ρ)) (x0 x1 y0 y1 : ℝ), p.boundingBox = .ok r ∧ IsLeast p.xs x0 ∧ IsGreatest p.xs x1 ∧
      IsLeast p.ys y0 ∧ IsGreatest p.ys y1 ∧ r.left.val = x0 ∧ r.top.val = y0 ∧
      r.right.val = ρ.f (x0 + ρ.f (x1 - x0)) ∧ r.bottom.val = ρ.f (y0 + ρ.f (y1 - y0)) := by
  obtain ⟨vs⟩ := p
  cases vs with
  | nil => exact absurd rfl h
  | cons v vs =>
    obtain ⟨x0, ex0, mx0, lx0, lx0'⟩ := fp_foldl_updMin (vs.map Vec.x) v.x
    obtain ⟨x1, ex1, mx1, lx1, lx1'⟩ := fp_foldl_updMax (vs.map Vec.x) v.x
    obtain ⟨y0, ey0, my0, ly0, ly0'⟩ := fp_foldl_updMin (vs.map Vec.y) v.y
    obtain ⟨y1, ey1, my1, ly1, ly1'⟩ := fp_foldl_updMax (vs.map Vec.y) v.y
    have hfabs : ∀ a b : FP ρ, a.val ≤ b.val → fabs (b - a) = b - a := by
      intro a b hab
      unfold fabs
      rw [if_neg]
      rw [FP.lt_def]
      simp only [FP.sub_val, FP.cast_val, Nat.cast_zero, ρ.zero, not_lt]
      exact ρ.nonneg (by linarith)
    refine ⟨Rect.ofPointSize (Vec.ofXY x0 y0) (Size.ofLW (x1 - x0) (y1 - y0)), x0.val, x1.val, y0.val, y1.val, ?_,
      ?_, ?_, ?_, ?_, rfl, rfl, ?_, ?_⟩
    · have gx0 : ((v :: vs).map Vec.x).foldl Poly.updMin none = some x0 := ex0
      have gx1 : ((v :: vs).map Vec.x).foldl Poly.updMax none = some x1 := ex1
      have gy0 : ((v :: vs).map Vec.y).foldl Poly.updMin none = some y0 := ey0
      have gy1 : ((v :: vs).map Vec.y).foldl Poly.updMax none = some y1 := ey1
      have hb := fp_foldl_bounds (v :: vs) {}
      unfold Poly.boundingBox
      simp only [hb, gx0, gx1, gy0, gy1]
    · constructor
      · rcases mx0 with rfl | m
        · exact ⟨v, by simp, rfl⟩
        · obtain ⟨w, hw, rfl⟩ := List.mem_map.mp m
          exact ⟨w, List.mem_cons_of_mem _ hw, rfl⟩
      · rintro x ⟨w, hw, rfl⟩
        rcases List.mem_cons.mp hw with rfl | hw
        · exact lx0
        · exact lx0' _ (List.mem_map_of_mem hw)
    · constructor
      · rcases mx1 with rfl | m
        · exact ⟨v, by simp, rfl⟩
        · obtain ⟨w, hw, rfl⟩ := List.mem_map.mp m
          exact ⟨w, List.mem_cons_of_mem _ hw, rfl⟩
      · rintro x ⟨w, hw, rfl⟩
        rcases List.mem_cons.mp hw with rfl | hw
        · exact lx1
        · exact lx1' _ (List.mem_map_of_mem hw)
    · constructor
      · rcases my0 with rfl | m
        · exact ⟨v, by simp, rfl⟩
        · obtain ⟨w, hw, rfl⟩ := List.mem_map.mp m
          exact ⟨w, List.mem_cons_of_mem _ hw, rfl⟩
      · rintro x ⟨w, hw, rfl⟩
        rcases List.mem_cons.mp hw with rfl | hw
        · exact ly0
        · exact ly0' _ (List.mem_map_of_mem hw)
    · constructor
      · rcases my1 with rfl | m
        · exact ⟨v, by simp, rfl⟩
        · obtain ⟨w, hw, rfl⟩ := List.mem_map.mp m
          exact ⟨w, List.mem_cons_of_mem _ hw, rfl⟩
      · rintro x ⟨w, hw, rfl⟩
        rcases List.mem_cons.mp hw with rfl | hw
        · exact ly1
        · exact ly1' _ (List.mem_map_of_mem hw)
    · change ρ.f (x0.val + (fabs (x1 - x0)).val) = _
      rw [hfabs x0 x1 (lx0.trans lx1)]; rfl
    · change ρ.f (y0.val + (fabs (y1 - y0)).val) = _
      rw [hfabs y0 y1 (ly0.trans ly1)]; rfl

theorem fp_contains (r : Rect (FP ρ)) (v : Vec (FP ρ)) : r.contains v = true ↔
    r.left.val ≤ v.x.val ∧ v.x.val ≤ r.right.val ∧ r.top.val ≤ v.y.val ∧ v.y.val ≤ r.bottom.val := by
  unfold Rect.contains
  simp only [Bool.and_eq_true, decide_eq_true_eq, FP.le_def]
  tauto

/-- **C97** (partial: exact condition, every rounding). All vertices are contained in the bounding box exactly if the
rounded `left + (right - left)` is not below the largest coordinate, in x and in y. -/
theorem C97_iff_partial (p : Poly (FP ρ)) (h : p.vertices ≠ []) {x0 x1 y0 y1 : ℝ} (hx0 : IsLeast p.xs x0)
    (hx1 : IsGreatest p.xs x1) (hy0 : IsLeast p.ys y0) (hy1 : IsGreatest p.ys y1) :
    ∃ r, p.boundingBox = .ok r ∧
      ((∀ v ∈ p.vertices, r.contains v = true) ↔
        x1 ≤ ρ.f (x0 + ρ.f (x1 - x0)) ∧ y1 ≤ ρ.f (y0 + ρ.f (y1 - y0))) := by
  obtain ⟨r, a0, a1, b0, b1, hr, i0, i1, j0, j1, e0, f0, e1, f1⟩ := fp_boundingBox p h
  obtain rfl := i0.unique hx0
  obtain rfl := i1.unique hx1
  obtain rfl := j0.unique hy0
  obtain rfl := j1.unique hy1
  refine ⟨r, hr, ?_⟩
  simp only [fp_contains, e0, f0, e1, f1]
  constructor
  · intro H
    obtain ⟨v, hv, hvx⟩ := i1.1
    obtain ⟨w, hw, hwy⟩ := j1.1
    exact ⟨hvx ▸ (H v hv).2.1, hwy ▸ (H w hw).2.2.2⟩
  · rintro ⟨H1, H2⟩ v hv
    exact ⟨i0.2 ⟨v, hv, rfl⟩, (i1.2 ⟨v, hv, rfl⟩).trans H1, j0.2 ⟨v, hv, rfl⟩, (j1.2 ⟨v, hv, rfl⟩).trans H2⟩

/-- **C97** (partial) On the left and at the top no vertex is outside, whatever the rounding. -/
theorem C97_left_top_partial (p : Poly (FP ρ)) (h : p.vertices ≠ []) :
    ∃ r, p.boundingBox = .ok r ∧ ∀ v ∈ p.vertices, r.left.val ≤ v.x.val ∧ r.top.val ≤ v.y.val := by
  obtain ⟨r, a0, a1, b0, b1, hr, i0, i1, j0, j1, e0, f0, e1, f1⟩ := fp_boundingBox p h
  refine ⟨r, hr, fun v hv => ?_⟩
  rw [e0, f0]
  exact ⟨i0.2 ⟨v, hv, rfl⟩, j0.2 ⟨v, hv, rfl⟩⟩

/-- **C97** (partial) In double precision it holds if all coordinates are integer multiples, of at most 53 bits, of one
power of two (for instance integers up to `2 ^ 52`). -/
theorem C97_grid_partial (p : Poly (FP double)) (h : p.vertices ≠ []) (k : ℤ) (hk : -1074 ≤ k)
    (hg : ∀ v ∈ p.vertices, (∃ n : ℤ, |n| ≤ 2 ^ 52 ∧ v.x.val = n * (2 : ℝ) ^ k) ∧
      ∃ n : ℤ, |n| ≤ 2 ^ 52 ∧ v.y.val = n * (2 : ℝ) ^ k) :
    ∃ r, p.boundingBox = .ok r ∧ ∀ v ∈ p.vertices, r.contains v = true := by
  obtain ⟨r, a0, a1, b0, b1, hr, i0, i1, j0, j1, e0, f0, e1, f1⟩ := fp_boundingBox p h
  have key : ∀ x0 x1 : ℝ, (∃ n : ℤ, |n| ≤ 2 ^ 52 ∧ x0 = n * (2 : ℝ) ^ k) →
      (∃ n : ℤ, |n| ≤ 2 ^ 52 ∧ x1 = n * (2 : ℝ) ^ k) → double.f (x0 + double.f (x1 - x0)) = x1 := by
    rintro x0 x1 ⟨n, hn, rfl⟩ ⟨m, hm, rfl⟩
    have d1 : IsDouble ((m : ℝ) * (2 : ℝ) ^ k - n * (2 : ℝ) ^ k) := by
      refine ⟨m - n, k, ?_, hk, by push_cast; ring⟩
      calc |m - n| ≤ |m| + |n| := abs_sub m n
        _ ≤ 2 ^ 53 := by linarith
    have d2 : IsDouble ((m : ℝ) * (2 : ℝ) ^ k) := ⟨m, k, by linarith, hk, rfl⟩
    change rne (_ + rne _) = _
    rw [rne_of_isDouble d1, add_sub_cancel, rne_of_isDouble d2]
  obtain ⟨v0, hv0, rfl⟩ := i0.1
  obtain ⟨v1, hv1, rfl⟩ := i1.1
  obtain ⟨w0, hw0, rfl⟩ := j0.1
  obtain ⟨w1, hw1, rfl⟩ := j1.1
  obtain ⟨r', hr', H⟩ := C97_iff_partial p h i0 i1 j0 j1
  exact ⟨r', hr', H.mpr ⟨(key _ _ (hg _ hv0).1 (hg _ hv1).1).ge, (key _ _ (hg _ hw0).2 (hg _ hw1).2).ge⟩⟩

/-- Sums and differences of doubles have a small relative error, also in the subnormal range. -/
theorem rne_grid_error {z : ℝ} (h : ∃ m : ℤ, z = m * (2 : ℝ) ^ (-1074 : ℤ)) : |rne z - z| ≤ (2 : ℝ) ^ (-53 : ℤ) * |z| := by
  rcases le_or_gt ((2 : ℝ) ^ (-1022 : ℤ)) |z| with h1 | h1
  · exact rne_rel_error h1
  · obtain ⟨m, rfl⟩ := h
    have hd : IsDouble ((m : ℝ) * (2 : ℝ) ^ (-1074 : ℤ)) := by
      refine ⟨m, -1074, ?_, le_rfl, rfl⟩
      have hp : (0 : ℝ) < (2 : ℝ) ^ (-1074 : ℤ) := by positivity
      rw [abs_mul, abs_of_pos hp, show (2 : ℝ) ^ (-1022 : ℤ) = (2 : ℝ) ^ (52 : ℤ) * (2 : ℝ) ^ (-1074 : ℤ) by
        rw [← zpow_add₀ two_ne_zero]; congr 1] at h1
      have h2 := lt_of_mul_lt_mul_right h1 hp.le
      have h3 : |m| < 2 ^ 52 := by
        have : ((|m| : ℤ) : ℝ) < ((2 ^ 52 : ℤ) : ℝ) := by
          rw [Int.cast_abs]; refine h2.trans_le (le_of_eq ?_); norm_num
        exact_mod_cast this
      exact h3.le.trans (by norm_num)
    rw [rne_of_isDouble hd, sub_self, abs_zero]
    positivity

theorem IsDouble.grid {x : ℝ} (h : IsDouble x) : ∃ m : ℤ, x = m * (2 : ℝ) ^ (-1074 : ℤ) := by
  obtain ⟨m, k, -, hk, rfl⟩ := h
  refine ⟨m * 2 ^ (k + 1074).toNat, ?_⟩
  push_cast
  rw [← zpow_natCast (2 : ℝ), Int.toNat_of_nonneg (by omega), mul_assoc, ← zpow_add₀ two_ne_zero]
  congr 2; ring

/-- **C97** (partial) In double precision a vertex is outside the box by at most `2 ^ (-51)` times the largest absolute
value of a coordinate. -/
theorem C97_error_partial (p : Poly (FP double)) (h : p.vertices ≠ []) (M : ℝ)
    (hd : ∀ v ∈ p.vertices, IsDouble v.x.val ∧ IsDouble v.y.val)
    (hM : ∀ v ∈ p.vertices, |v.x.val| ≤ M ∧ |v.y.val| ≤ M) :
    ∃ r, p.boundingBox = .ok r ∧ ∀ v ∈ p.vertices, v.x.val ≤ r.right.val + (2 : ℝ) ^ (-51 : ℤ) * M ∧
      v.y.val ≤ r.bottom.val + (2 : ℝ) ^ (-51 : ℤ) * M := by
  obtain ⟨r, a0, a1, b0, b1, hr, i0, i1, j0, j1, e0, f0, e1, f1⟩ := fp_boundingBox p h
  have key : ∀ x0 x1 : ℝ, IsDouble x0 → IsDouble x1 → |x0| ≤ M → |x1| ≤ M →
      x1 ≤ double.f (x0 + double.f (x1 - x0)) + (2 : ℝ) ^ (-51 : ℤ) * M := by
    intro x0 x1 h0 h1 m0 m1
    obtain ⟨n0, g0⟩ := h0.grid
    obtain ⟨n1, g1⟩ := h1.grid
    have q1 : |rne (x1 - x0) - (x1 - x0)| ≤ (2 : ℝ) ^ (-53 : ℤ) * |x1 - x0| :=
      rne_grid_error ⟨n1 - n0, by rw [g0, g1]; push_cast; ring⟩
    obtain ⟨n2, g2⟩ := (isDouble_rne (x1 - x0)).grid
    have q2 : |rne (x0 + rne (x1 - x0)) - (x0 + rne (x1 - x0))| ≤ (2 : ℝ) ^ (-53 : ℤ) * |x0 + rne (x1 - x0)| := by
      refine rne_grid_error ⟨n0 + n2, ?_⟩
      rw [g2, g0]; push_cast; ring
    change x1 ≤ rne (x0 + rne (x1 - x0)) + _
    set u : ℝ := (2 : ℝ) ^ (-53 : ℤ) with hu
    have hu' : (2 : ℝ) ^ (-51 : ℤ) = 4 * u := by
      rw [hu, show (4 : ℝ) = (2 : ℝ) ^ (2 : ℤ) by norm_num, ← zpow_add₀ two_ne_zero]; congr 1
    have hu0 : 0 < u := by positivity
    have hu1 : u ≤ 1 / 4 := by rw [hu]; norm_num
    rw [hu']
    clear g0 g1 g2 hu'
    clear_value u
    clear hu
    have hM0 : 0 ≤ M := (abs_nonneg _).trans m0
    have t1 : |x1 - x0| ≤ 2 * M := by
      calc |x1 - x0| ≤ |x1| + |x0| := abs_sub x1 x0
        _ ≤ 2 * M := by linarith
    have t2 : |rne (x1 - x0) - (x1 - x0)| ≤ u * (2 * M) := q1.trans (mul_le_mul_of_nonneg_left t1 hu0.le)
    have t3 : |x0 + rne (x1 - x0)| ≤ M + u * (2 * M) := by
      have : x0 + rne (x1 - x0) = x1 + (rne (x1 - x0) - (x1 - x0)) := by ring
      rw [this]
      exact (abs_add_le _ _).trans (add_le_add m1 t2)
    have t4 := q2.trans (mul_le_mul_of_nonneg_left t3 hu0.le)
    rw [abs_le] at t2 t4
    have : u * (u * (2 * M)) ≤ u * M := by
      refine mul_le_mul_of_nonneg_left ?_ hu0.le
      have := mul_le_mul_of_nonneg_right hu1 hM0
      linarith
    nlinarith [t2.1, t4.1]
  obtain ⟨v0, hv0, rfl⟩ := i0.1
  obtain ⟨v1, hv1, rfl⟩ := i1.1
  obtain ⟨w0, hw0, rfl⟩ := j0.1
  obtain ⟨w1, hw1, rfl⟩ := j1.1
  refine ⟨r, hr, fun v hv => ?_⟩
  rw [e1, f1]
  constructor
  · exact (i1.2 ⟨v, hv, rfl⟩).trans (key _ _ (hd _ hv0).1 (hd _ hv1).1 (hM _ hv0).1 (hM _ hv1).1)
  · exact (j1.2 ⟨v, hv, rfl⟩).trans (key _ _ (hd _ hw0).2 (hd _ hw1).2 (hM _ hw0).2 (hM _ hw1).2)

/-- A triangle with corners (-1, 0), (2^-60, 0), (0, 1); all coordinates are doubles. -/
noncomputable def boxTriangle : Poly (FP double) :=
  Poly.ofList [Vec.ofXY ⟨-1⟩ ⟨0⟩, Vec.ofXY ⟨(2 : ℝ) ^ (-60 : ℤ)⟩ ⟨0⟩, Vec.ofXY ⟨0⟩ ⟨1⟩]

theorem boxTriangle_isDouble : ∀ v ∈ boxTriangle.vertices, IsDouble v.x.val ∧ IsDouble v.y.val := by
  have h0 : IsDouble 0 := by simpa using isDouble_nat (n := 0) (by norm_num)
  have h1 : IsDouble 1 := by simpa using isDouble_nat (n := 1) (by norm_num)
  have h2 : IsDouble ((2 : ℝ) ^ (-60 : ℤ)) := ⟨1, -60, by norm_num, by norm_num, by simp⟩
  intro v hv
  simp only [boxTriangle, Poly.ofList, List.mem_cons, List.not_mem_nil, or_false] at hv
  rcases hv with rfl | rfl | rfl
  · exact ⟨h1.neg, h0⟩
  · exact ⟨h2, h0⟩
  · exact ⟨h0, h1⟩

/-- **C97 is false**: in double precision `left + (right - left)` is 0 for this triangle, so its second corner is not
contained in its bounding box. -/
theorem C97_refuted : ∃ r v, boxTriangle.boundingBox = .ok r ∧ v ∈ boxTriangle.vertices ∧ r.contains v = false := by
  have hp : (0 : ℝ) < (2 : ℝ) ^ (-60 : ℤ) := by positivity
  have hp1 : (2 : ℝ) ^ (-60 : ℤ) < 1 / 2 ^ 53 := by norm_num
  have hp2 : (1 : ℝ) / 2 ^ 53 < 1 := by norm_num
  obtain ⟨r, a0, a1, b0, b1, hr, i0, i1, j0, j1, e0, f0, e1, f1⟩ := fp_boundingBox boxTriangle (by
    simp [boxTriangle, Poly.ofList])
  have hxs : ∀ x, x ∈ boxTriangle.xs ↔ x = -1 ∨ x = (2 : ℝ) ^ (-60 : ℤ) ∨ x = 0 := by
    intro x
    simp only [Poly.xs, boxTriangle, Poly.ofList, Set.mem_ofPred_eq, List.mem_cons, List.not_mem_nil, or_false,
      exists_eq_or_imp, exists_eq_left, Vec.ofXY]
    constructor
    · rintro (h | h | h) <;> simp [← h]
    · rintro (h | h | h) <;> simp [h]
  have ea0 : a0 = -1 := by
    refine i0.unique ⟨(hxs _).mpr (.inl rfl), fun x hx => ?_⟩
    rcases (hxs x).mp hx with rfl | rfl | rfl <;> linarith
  have ea1 : a1 = (2 : ℝ) ^ (-60 : ℤ) := by
    refine i1.unique ⟨(hxs _).mpr (.inr (.inl rfl)), fun x hx => ?_⟩
    rcases (hxs x).mp hx with rfl | rfl | rfl <;> linarith
  have hround : rne ((2 : ℝ) ^ (-60 : ℤ) - -1) = 1 := by
    have hlog : Int.log 2 |(2 : ℝ) ^ (-60 : ℤ) - -1| = 0 := by
      rw [abs_of_pos (by linarith)]
      refine le_antisymm ?_ ?_
      · have h1 : (2 : ℝ) ^ (-60 : ℤ) - -1 < ((2 : ℕ) : ℝ) ^ (1 : ℤ) := by norm_num
        have := (Int.lt_zpow_iff_log_lt (R := ℝ) (b := 2) one_lt_two (x := 1) (r := (2 : ℝ) ^ (-60 : ℤ) - -1)
          (by linarith)).mp h1
        omega
      · refine (Int.zpow_le_iff_le_log (R := ℝ) (b := 2) one_lt_two (by linarith)).mp ?_
        simp only [zpow_zero]; linarith
    have hulp : ulp ((2 : ℝ) ^ (-60 : ℤ) - -1) = (2 : ℝ) ^ (-52 : ℤ) := by
      unfold ulp; rw [hlog]; norm_num
    unfold rne
    rw [hulp]
    have hdiv : ((2 : ℝ) ^ (-60 : ℤ) - -1) / (2 : ℝ) ^ (-52 : ℤ) = 2 ^ 52 + 1 / 256 := by norm_num
    have hfl : ⌊((2 : ℝ) ^ 52 + 1 / 256)⌋ = 2 ^ 52 := by
      rw [Int.floor_eq_iff]; norm_num
    have hre : roundEven ((2 : ℝ) ^ 52 + 1 / 256) = 2 ^ 52 := by
      have hfr : Int.fract ((2 : ℝ) ^ 52 + 1 / 256) = 1 / 256 := by
        unfold Int.fract; rw [hfl]; push_cast; ring
      unfold roundEven
      rw [hfr, if_pos (by norm_num), hfl]
    rw [hdiv, hre]
    norm_num
  have hright : r.right.val = 0 := by
    rw [e1, ea0, ea1]
    change rne (-1 + rne _) = 0
    rw [hround, show (-1 + 1 : ℝ) = 0 by norm_num, rne_zero]
  refine ⟨r, Vec.ofXY ⟨(2 : ℝ) ^ (-60 : ℤ)⟩ ⟨0⟩, hr, by simp [boxTriangle, Poly.ofList], ?_⟩
  rw [← Bool.not_eq_true, fp_contains, hright]
  rintro ⟨-, h2, -⟩
  exact absurd (show (2 : ℝ) ^ (-60 : ℤ) ≤ 0 from h2) (not_le.mpr hp)

/-- Non-vacuity of `C97_grid_partial`: a triangle with integer corners. -/
example : ∃ r, (Poly.ofList [Vec.ofXY (⟨1⟩ : FP double) ⟨0⟩, Vec.ofXY ⟨5⟩ ⟨2⟩, Vec.ofXY ⟨-3⟩ ⟨7⟩]).boundingBox = .ok r ∧
    ∀ v ∈ [Vec.ofXY (⟨1⟩ : FP double) ⟨0⟩, Vec.ofXY ⟨5⟩ ⟨2⟩, Vec.ofXY ⟨-3⟩ ⟨7⟩], r.contains v = true := by
  refine C97_grid_partial (Poly.ofList [Vec.ofXY (⟨1⟩ : FP double) ⟨0⟩, Vec.ofXY ⟨5⟩ ⟨2⟩, Vec.ofXY ⟨-3⟩ ⟨7⟩])
    (by simp [Poly.ofList]) 0 (by norm_num) ?_
  intro v hv
  simp only [Poly.ofList, List.mem_cons, List.not_mem_nil, or_false] at hv
  rcases hv with rfl | rfl | rfl
  · exact ⟨⟨1, by norm_num, by simp [Vec.ofXY]⟩, ⟨0, by norm_num, by simp [Vec.ofXY]⟩⟩
  · exact ⟨⟨5, by norm_num, by simp [Vec.ofXY]⟩, ⟨2, by norm_num, by simp [Vec.ofXY]⟩⟩
  · exact ⟨⟨-3, by norm_num, by simp [Vec.ofXY]⟩, ⟨7, by norm_num, by simp [Vec.ofXY]⟩⟩

end PyrusGeom
