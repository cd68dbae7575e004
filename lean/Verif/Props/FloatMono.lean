import Verif.Model.Sector
import Verif.Model.Rect
import Verif.Model.SoccerMath
import Verif.Props.FloatRange

/-! # C193: monotone formulas stay monotone under rounding

Except for the quantisation, everything here holds for every monotone odd rounding. -/

namespace PyrusGeom

variable {ρ : Rounding}

namespace FP

theorem r0 (ρ : Rounding) : ρ.f 0 = 0 := by simpa using ρ.int 0 (by norm_num)
theorem r1 (ρ : Rounding) : ρ.f 1 = 1 := by simpa using ρ.int 1 (by norm_num)

theorem r_nonneg {x : ℝ} (h : 0 ≤ x) : 0 ≤ ρ.f x := by rw [← r0 ρ]; exact ρ.mono h
theorem r_abs (x : ℝ) : |ρ.f x| = ρ.f |x| := by
  rcases le_total 0 x with h | h
  · rw [abs_of_nonneg h, abs_of_nonneg (r_nonneg h)]
  · have := r_nonneg (ρ := ρ) (neg_nonneg.mpr h)
    rw [ρ.odd] at this
    rw [abs_of_nonpos h, abs_of_nonpos (by linarith), ρ.odd]

theorem n_val (n : ℕ) (h : n ≤ 360) : (num n : FP ρ).val = n := ρ.int n h

theorem fabs_v (x : FP ρ) : (fabs x).val = |x.val| := by
  unfold fabs
  have h0 : (num 0 : FP ρ).val = 0 := by simpa using n_val (ρ := ρ) 0 (by norm_num)
  by_cases c : x < num 0
  · rw [if_pos c]
    have c' : x.val < (num 0 : FP ρ).val := c
    rw [h0] at c'
    rw [abs_of_neg c']; rfl
  · rw [if_neg c]
    have c' : ¬ x.val < (num 0 : FP ρ).val := c
    rw [h0, not_lt] at c'
    rw [abs_of_nonneg c']

theorem sq_mono {x y : ℝ} (h : |x| ≤ |y|) : ρ.f (x * x) ≤ ρ.f (y * y) := ρ.mono (abs_le_abs_iff_sq.mp h)
where abs_le_abs_iff_sq {x y : ℝ} : |x| ≤ |y| ↔ x * x ≤ y * y := by rw [← pow_two, ← pow_two]; exact sq_le_sq.symm

end FP

open FP

/-- **C193** Lengths and distances grow with the coordinate differences. -/
theorem C193_dist (a b c d : Vec (FP ρ)) (hx : |a.x.val - b.x.val| ≤ |c.x.val - d.x.val|) (hy : |a.y.val - b.y.val| ≤ |c.y.val - d.y.val|) :
    (a.dist2 b).val ≤ (c.dist2 d).val ∧ (a.dist b).val ≤ (c.dist d).val := by
  have key : (a.dist2 b).val ≤ (c.dist2 d).val := by
    refine ρ.mono (add_le_add (sq_mono ?_) (sq_mono ?_))
    · change |ρ.f _| ≤ |ρ.f _|
      rw [r_abs, r_abs]; exact ρ.mono hx
    · change |ρ.f _| ≤ |ρ.f _|
      rw [r_abs, r_abs]; exact ρ.mono hy
  exact ⟨key, ρ.mono (Real.sqrt_le_sqrt key)⟩

theorem C193_length (v w : Vec (FP ρ)) (hx : |v.x.val| ≤ |w.x.val|) (hy : |v.y.val| ≤ |w.y.val|) : v.r2.val ≤ w.r2.val ∧ v.r.val ≤ w.r.val := by
  have key : v.r2.val ≤ w.r2.val := ρ.mono (add_le_add (sq_mono hx) (sq_mono hy))
  exact ⟨key, ρ.mono (Real.sqrt_le_sqrt key)⟩

/-- **C193** A larger circle contains what a smaller one contains, and with a point every point that is nearer to the center in both
coordinates. -/
theorem C193_circle (c : Circle (FP ρ)) (R : FP ρ) (h0 : 0 ≤ c.radius.val) (hR : c.radius.val ≤ R.val) (p q : Vec (FP ρ))
    (hx : |p.x.val - c.center.x.val| ≤ |q.x.val - c.center.x.val|) (hy : |p.y.val - c.center.y.val| ≤ |q.y.val - c.center.y.val|)
    (h : c.contains q = true) : (⟨c.center, R⟩ : Circle (FP ρ)).contains p = true ∧ c.area.val ≤ (⟨c.center, R⟩ : Circle (FP ρ)).area.val := by
  constructor
  · have h : (c.center.dist2 q).val < (c.radius * c.radius).val := of_decide_eq_true h
    refine decide_eq_true ?_
    change (c.center.dist2 p).val < (R * R).val
    refine lt_of_le_of_lt ?_ (lt_of_lt_of_le h ?_)
    · rw [abs_sub_comm, abs_sub_comm q.x.val] at hx
      rw [abs_sub_comm, abs_sub_comm q.y.val] at hy
      exact (C193_dist _ _ _ _ hx hy).1
    · exact ρ.mono (mul_self_le_mul_self h0 hR)
  · have hp : 0 ≤ ρ.f Real.pi := r_nonneg Real.pi_pos.le
    exact ρ.mono (mul_le_mul (ρ.mono (mul_le_mul_of_nonneg_left hR hp)) hR h0 (r_nonneg (mul_nonneg hp (h0.trans hR))))

/-- **C193** A sector with a smaller inner and a larger outer radius contains what the other contains. -/
theorem C193_sector (s : Sector (FP ρ)) (m M : FP ρ) (h0 : 0 ≤ m.val) (hm : m.val ≤ s.minR.val) (h1 : 0 ≤ s.maxR.val) (hM : s.maxR.val ≤ M.val)
    (p : Vec (FP ρ)) (h : s.contains p = true) : ({ s with minR := m, maxR := M } : Sector (FP ρ)).contains p = true := by
  have h' := (Bool.and_eq_true _ _).mp h
  have h'' := (Bool.and_eq_true _ _).mp h'.1
  have a1 : (s.minR * s.minR).val ≤ (p.sub s.center).r2.val := of_decide_eq_true h''.1
  have a2 : (p.sub s.center).r2.val ≤ (s.maxR * s.maxR).val := of_decide_eq_true h''.2
  refine (Bool.and_eq_true _ _).mpr ⟨(Bool.and_eq_true _ _).mpr ⟨decide_eq_true ?_, decide_eq_true ?_⟩, h'.2⟩
  · exact le_trans (ρ.mono (mul_self_le_mul_self h0 hm)) a1
  · exact le_trans a2 (ρ.mono (mul_self_le_mul_self h1 hM))

/-- **C193** Making a rectangle longer or wider loses no point; area and diagonal grow. -/
theorem C193_rect (r : Rect (FP ρ)) (l w : FP ρ) (hl0 : 0 ≤ r.size.length.val) (hw0 : 0 ≤ r.size.width.val) (hl : r.size.length.val ≤ l.val)
    (hw : r.size.width.val ≤ w.val) :
    (∀ p, r.contains p = true → (⟨r.topLeft, ⟨l, w⟩⟩ : Rect (FP ρ)).contains p = true) ∧ r.area.val ≤ (⟨r.topLeft, ⟨l, w⟩⟩ : Rect (FP ρ)).area.val ∧
    r.size.diagonal.val ≤ (⟨l, w⟩ : Size (FP ρ)).diagonal.val := by
  refine ⟨fun p h => ?_, ρ.mono (mul_le_mul hl hw hw0 (hl0.trans hl)), ρ.mono (Real.sqrt_le_sqrt (ρ.mono (add_le_add ?_ ?_)))⟩
  · unfold Rect.contains at h ⊢
    simp only [Bool.and_eq_true, decide_eq_true_eq] at h ⊢
    obtain ⟨⟨⟨h1, h2⟩, h3⟩, h4⟩ := h
    refine ⟨⟨⟨h1, ?_⟩, h3⟩, ?_⟩
    · exact le_trans (show p.x.val ≤ r.right.val from h2) (ρ.mono (add_le_add_right hl _))
    · exact le_trans (show p.y.val ≤ r.bottom.val from h4) (ρ.mono (add_le_add_right hw _))
  · exact ρ.mono (mul_self_le_mul_self hl0 hl)
  · exact ρ.mono (mul_self_le_mul_self hw0 hw)

namespace FP

theorem div_of_ok {x y z : FP ρ} (h : pyDiv x y = .ok z) : z.val = ρ.f (x.val / y.val) ∧ y.val ≠ 0 := by
  unfold pyDiv at h
  by_cases c : (y == num 0) = true
  · rw [if_pos c] at h; cases h
  · rw [if_neg c] at h
    cases h
    refine ⟨rfl, fun h0 => c (decide_eq_true ?_)⟩
    rw [h0, n_val 0 (by norm_num)]
    norm_num

theorem ok_of_bind {α β : Type} {x : Except PyErr α} {f : α → Except PyErr β} {b : β} (h : x >>= f = .ok b) : ∃ a, x = .ok a ∧ f a = .ok b := by
  cases x with
  | error e => cases h
  | ok a => exact ⟨a, rfl, h⟩

end FP

open SoccerMath

/-- **C193** The kick rate falls with the distance from the ball and with the angle. -/
theorem C193_kick_rate (dist dist' dir dir' power ball player margin x y : FP ρ) (hm : 0 < margin.val) (hp : 0 ≤ power.val)
    (hd : dist.val ≤ dist'.val) (ha : |dir.val| ≤ |dir'.val|) (h : kickRate dist dir power ball player margin = .ok x)
    (h' : kickRate dist' dir' power ball player margin = .ok y) : y.val ≤ x.val := by
  have q0 : 0 ≤ (num 1 / num 4 : FP ρ).val := by
    change 0 ≤ ρ.f _
    rw [n_val 1 (by norm_num), n_val 4 (by norm_num)]
    exact r_nonneg (by norm_num)
  have h180 : (0 : ℝ) ≤ (num 180 : FP ρ).val := by rw [n_val 180 (by norm_num)]; norm_num
  unfold kickRate at h h'
  obtain ⟨u, hu, h⟩ := ok_of_bind h
  obtain ⟨u', hu', h'⟩ := ok_of_bind h'
  cases h
  cases h'
  obtain ⟨hu, _⟩ := div_of_ok hu
  obtain ⟨hu', _⟩ := div_of_ok hu'
  have huu : u.val ≤ u'.val := by
    rw [hu, hu']
    refine ρ.mono (div_le_div_of_nonneg_right (ρ.mono (mul_le_mul_of_nonneg_left (ρ.mono (sub_le_sub_right (ρ.mono (sub_le_sub_right hd _)) _)) q0)) hm.le)
  refine ρ.mono (mul_le_mul_of_nonneg_left (ρ.mono (sub_le_sub (ρ.mono (sub_le_sub_left (ρ.mono (div_le_div_of_nonneg_right (ρ.mono ?_) h180)) _)) huu)) hp)
  rw [fabs_v, fabs_v]
  exact mul_le_mul_of_nonneg_left ha q0

/-- **C193** The dash rate falls with the angle in front. At the back it falls if `back ≤ side` and grows if `side ≤ back`. -/
theorem C193_dir_rate (dir dir' back side : FP ρ) (ha : |dir.val| ≤ |dir'.val|) :
    (side.val ≤ 1 → |dir'.val| ≤ 90 → (dirRate dir' back side).val ≤ (dirRate dir back side).val) ∧
    (90 < |dir.val| → back.val ≤ side.val → (dirRate dir' back side).val ≤ (dirRate dir back side).val) ∧
    (90 < |dir.val| → side.val ≤ back.val → (dirRate dir back side).val ≤ (dirRate dir' back side).val) := by
  have h90 : (num 90 : FP ρ).val = 90 := by rw [n_val 90 (by norm_num)]; norm_num
  have h1' : (num 1 : FP ρ).val = 1 := by rw [n_val 1 (by norm_num)]; norm_num
  have lt : ∀ d : FP ρ, num 90 < fabs d ↔ 90 < |d.val| := fun d => by
    rw [FP.lt_def, fabs_v, h90]
  have t : (num 1 - (fabs dir' - num 90) / num 90 : FP ρ).val ≤ (num 1 - (fabs dir - num 90) / num 90 : FP ρ).val := by
    refine ρ.mono (sub_le_sub_left (ρ.mono (div_le_div_of_nonneg_right (ρ.mono (sub_le_sub_right ?_ _)) ?_)) _)
    · rw [fabs_v, fabs_v]; exact ha
    · rw [h90]; norm_num
  unfold dirRate
  refine ⟨fun h2 hs => ?_, fun hs h1 => ?_, fun hs h1 => ?_⟩
  · rw [if_neg (by rw [lt]; exact not_lt.mpr hs), if_neg (by rw [lt]; exact not_lt.mpr (ha.trans hs))]
    refine ρ.mono (add_le_add_right (ρ.mono (mul_le_mul_of_nonneg_left (ρ.mono (sub_le_sub_left (ρ.mono (div_le_div_of_nonneg_right ?_ ?_)) _)) (r_nonneg ?_))) _)
    · rw [fabs_v, fabs_v]; exact ha
    · rw [h90]; norm_num
    · rw [h1']; linarith
  · rw [if_pos ((lt _).mpr hs), if_pos ((lt _).mpr (hs.trans_le ha))]
    refine ρ.mono (sub_le_sub_left (ρ.mono (mul_le_mul_of_nonpos_left t ?_)) _)
    rw [← r0 ρ]; exact ρ.mono (by linarith)
  · rw [if_pos ((lt _).mpr hs), if_pos ((lt _).mpr (hs.trans_le ha))]
    exact ρ.mono (sub_le_sub_left (ρ.mono (mul_le_mul_of_nonneg_left t (r_nonneg (by linarith)))) _)

/-- **C193** The effective turn grows with the moment and falls with the speed. -/
theorem C193_effective_turn (moment moment' speed speed' inertia x y : FP ρ) (h0 : 0 ≤ moment.val) (hm : moment.val ≤ moment'.val)
    (hs0 : 0 ≤ speed'.val) (hs : speed'.val ≤ speed.val) (hi : 0 ≤ inertia.val) (h : effectiveTurn moment speed inertia = .ok x)
    (h' : effectiveTurn moment' speed' inertia = .ok y) : x.val ≤ y.val := by
  have h1' : (num 1 : FP ρ).val = 1 := by rw [n_val 1 (by norm_num)]; norm_num
  obtain ⟨hx, nx⟩ := div_of_ok h
  obtain ⟨hy, ny⟩ := div_of_ok h'
  rw [hx, hy]
  have pos : 0 < (num 1 + inertia * speed' : FP ρ).val := by
    refine lt_of_le_of_ne (r_nonneg (add_nonneg ?_ (r_nonneg (mul_nonneg hi hs0)))) (Ne.symm ny)
    rw [h1']; norm_num
  refine ρ.mono (div_le_div₀ (h0.trans hm) hm pos (ρ.mono (add_le_add_right (ρ.mono (mul_le_mul_of_nonneg_left hs hi)) _)))

/-- **C193** The final speed grows with power, rate, effort and decay, and so does the answer of `can_over_speed_max`. -/
theorem C193_final_speed (power power' rate rate' effort effort' decay decay' vmax : FP ρ) (hp : |power.val| ≤ |power'.val|)
    (hr0 : 0 ≤ rate.val) (hr : rate.val ≤ rate'.val) (he0 : 0 ≤ effort.val) (he : effort.val ≤ effort'.val)
    (hd : decay.val ≤ decay'.val) (hd1 : decay'.val < 1) :
    (∀ x y, finalSpeed power rate effort decay = .ok x → finalSpeed power' rate' effort' decay' = .ok y → x.val ≤ y.val) ∧
    (0 ≤ vmax.val → canOverSpeedMax power rate effort decay vmax = true → canOverSpeedMax power' rate' effort' decay' vmax = true) := by
  have h1' : (num 1 : FP ρ).val = 1 := by rw [n_val 1 (by norm_num)]; norm_num
  have num_le : (fabs power * rate * effort : FP ρ).val ≤ (fabs power' * rate' * effort' : FP ρ).val := by
    have fp : ∀ p : FP ρ, 0 ≤ (fabs p).val := fun p => by rw [fabs_v]; exact abs_nonneg _
    refine ρ.mono (mul_le_mul (ρ.mono (mul_le_mul ?_ hr hr0 (fp _))) he he0 (r_nonneg (mul_nonneg (fp _) (hr0.trans hr))))
    rw [fabs_v, fabs_v]; exact hp
  have num0 : 0 ≤ (fabs power' * rate' * effort' : FP ρ).val := by
    have fp : ∀ p : FP ρ, 0 ≤ (fabs p).val := fun p => by rw [fabs_v]; exact abs_nonneg _
    exact r_nonneg (mul_nonneg (r_nonneg (mul_nonneg (fp _) (hr0.trans hr))) (he0.trans he))
  have den : (num 1 - decay' : FP ρ).val ≤ (num 1 - decay : FP ρ).val := ρ.mono (sub_le_sub_left hd _)
  have den0 : 0 ≤ (num 1 - decay' : FP ρ).val := r_nonneg (by rw [h1']; linarith)
  constructor
  · intro x y h h'
    obtain ⟨hx, nx⟩ := div_of_ok h
    obtain ⟨hy, ny⟩ := div_of_ok h'
    rw [hx, hy]
    exact ρ.mono (div_le_div₀ num0 num_le (lt_of_le_of_ne den0 (Ne.symm ny)) den)
  · intro hv h
    have h : (vmax * (num 1 - decay) : FP ρ).val < (fabs power * rate * effort : FP ρ).val := of_decide_eq_true h
    refine decide_eq_true ?_
    change (vmax * (num 1 - decay') : FP ρ).val < (fabs power' * rate' * effort' : FP ρ).val
    exact lt_of_le_of_lt (ρ.mono (mul_le_mul_of_nonneg_left den hv)) (lt_of_lt_of_le h num_le)

/-- **C193** The distance that a ball rolls in the end grows with its speed and with the decay. -/
theorem C193_inertia_final (speed speed' decay decay' x y : FP ρ) (h0 : 0 ≤ speed'.val) (hs : speed.val ≤ speed'.val) (hd : decay.val ≤ decay'.val)
    (hd1 : decay'.val < 1) (h : inertiaFinalDistance speed decay = .ok x) (h' : inertiaFinalDistance speed' decay' = .ok y) : x.val ≤ y.val := by
  have h1' : (num 1 : FP ρ).val = 1 := by rw [n_val 1 (by norm_num)]; norm_num
  obtain ⟨hx, nx⟩ := div_of_ok h
  obtain ⟨hy, ny⟩ := div_of_ok h'
  rw [hx, hy]
  exact ρ.mono (div_le_div₀ h0 hs (lt_of_le_of_ne (r_nonneg (by rw [h1']; linarith)) (Ne.symm ny)) (ρ.mono (sub_le_sub_left hd _)))

section
variable [m : PyMath (FP ρ)]

/-- **C193** The distance rolled in `n` steps grows with the speed, and with `n` if the powers of the library fall. -/
theorem C193_inertia_steps (speed speed' decay x y : FP ρ) (n n' : ℤ) (h0 : 0 ≤ speed'.val) (hs : speed.val ≤ speed'.val)
    (hd1 : decay.val < 1) (hp : (PyMath.powi decay n' : FP ρ).val ≤ (PyMath.powi decay n : FP ρ).val) (hp1 : (PyMath.powi decay n : FP ρ).val ≤ 1)
    (h : inertiaNStepDistance speed n decay = .ok x) (h' : inertiaNStepDistance speed' n' decay = .ok y) : x.val ≤ y.val := by
  have h1' : (num 1 : FP ρ).val = 1 := by rw [n_val 1 (by norm_num)]; norm_num
  unfold inertiaNStepDistance at h h'
  obtain ⟨u, hu, h⟩ := ok_of_bind h
  obtain ⟨u', hu', h'⟩ := ok_of_bind h'
  have pw : ∀ {n : ℤ} {u : FP ρ}, mathPow decay n = .ok u → u = PyMath.powi decay n := by
    intro n u hu
    unfold mathPow at hu
    split at hu
    · cases hu
    · cases hu; rfl
  obtain rfl := pw hu
  obtain rfl := pw hu'
  obtain ⟨hx, nx⟩ := div_of_ok h
  obtain ⟨hy, ny⟩ := div_of_ok h'
  rw [hx, hy]
  refine ρ.mono (div_le_div_of_nonneg_right (ρ.mono (mul_le_mul hs (ρ.mono (sub_le_sub_left hp _)) (r_nonneg ?_) h0)) (r_nonneg ?_))
  · rw [h1']; linarith
  · rw [h1']; linarith

/-- **C193** The first term of a falling geometric series grows with its sum. -/
theorem C193_first_term (sum sum' ratio x y : FP ρ) (n : ℤ) (hs : sum.val ≤ sum'.val) (hr : ratio.val ≤ 1)
    (hp1 : (PyMath.powi ratio n : FP ρ).val ≤ 1) (h : calcFirstTermGeomSeries sum ratio n = .ok x)
    (h' : calcFirstTermGeomSeries sum' ratio n = .ok y) : x.val ≤ y.val := by
  have h1' : (num 1 : FP ρ).val = 1 := by rw [n_val 1 (by norm_num)]; norm_num
  unfold calcFirstTermGeomSeries at h h'
  obtain ⟨u, hu, h⟩ := ok_of_bind h
  obtain ⟨u', hu', h'⟩ := ok_of_bind h'
  have pw : ∀ {u : FP ρ}, mathPow ratio n = .ok u → u = PyMath.powi ratio n := by
    intro u hu
    unfold mathPow at hu
    split at hu
    · cases hu
    · cases hu; rfl
  obtain rfl := pw hu
  obtain rfl := pw hu'
  obtain ⟨hx, nx⟩ := div_of_ok h
  obtain ⟨hy, ny⟩ := div_of_ok h'
  rw [hx, hy]
  refine ρ.mono (div_le_div_of_nonneg_right (ρ.mono (mul_le_mul_of_nonneg_right hs (r_nonneg ?_))) (r_nonneg ?_))
  · rw [h1']; linarith
  · rw [h1']; linarith

end

/-- **C193** `bound` and `min_max` are monotone in all three arguments. -/
theorem C193_clamp (a a' b b' c c' : FP ρ) (ha : a.val ≤ a'.val) (hb : b.val ≤ b'.val) (hc : c.val ≤ c'.val) :
    (bound a b c).val ≤ (bound a' b' c').val ∧ (minMax a b c).val ≤ (minMax a' b' c').val := by
  have mx : ∀ a b : FP ρ, (pyMax a b).val = max a.val b.val := by
    intro a b
    unfold pyMax
    by_cases h : a < b
    · rw [if_pos h, max_eq_right (le_of_lt (show a.val < b.val from h))]
    · rw [if_neg h, max_eq_left (not_lt.mp (show ¬ a.val < b.val from h))]
  have mn : ∀ a b : FP ρ, (pyMin a b).val = min a.val b.val := by
    intro a b
    unfold pyMin
    by_cases h : b < a
    · rw [if_pos h, min_eq_right (le_of_lt (show b.val < a.val from h))]
    · rw [if_neg h, min_eq_left (not_lt.mp (show ¬ b.val < a.val from h))]
  unfold bound minMax
  rw [mn, mn, mx, mx]
  exact ⟨min_le_min (max_le_max ha hb) hc, min_le_min (max_le_max ha hb) hc⟩

theorem rInt_mono {x y : ℝ} (h : x ≤ y) : rInt x ≤ rInt y := by
  rcases lt_or_ge x 0 with hx | hx
  · rcases lt_or_ge y 0 with hy | hy
    · rw [rInt_of_neg hx, rInt_of_neg hy]
      exact neg_le_neg (Int.floor_mono (by linarith))
    · rw [rInt_of_neg hx, rInt_of_nonneg hy]
      have h1 : 0 ≤ ⌊-x + 1 / 2⌋ := Int.floor_nonneg.mpr (by linarith)
      have h2 : 0 ≤ ⌊y + 1 / 2⌋ := Int.floor_nonneg.mpr (by linarith)
      omega
  · rw [rInt_of_nonneg hx, rInt_of_nonneg (hx.trans h)]
    exact Int.floor_mono (by linarith)

/-- **C193** Quantising keeps the order of its values, and so do the bounds of the values that it could come from. -/
theorem C193_quantize (v w q x y : FP double) (hq : 0 < q.val) (hv : |v.val / q.val| ≤ 2 ^ 50) (hw : |w.val / q.val| ≤ 2 ^ 50)
    (h : v.val ≤ w.val) :
    (quantize v q = .ok x → quantize w q = .ok y → x.val ≤ y.val) ∧
    (unquantizeMin v q = .ok x → unquantizeMin w q = .ok y → x.val ≤ y.val) ∧
    (unquantizeMax v q = .ok x → unquantizeMax w q = .ok y → x.val ≤ y.val) := by
  have hr : ∀ {u : ℝ}, |u| ≤ 2 ^ 50 → rInt (⟨rne u⟩ : FP double) = rInt (rne u) := by
    intro u hu
    refine C99_exact_partial _ (isDouble_rne u) ?_
    have := rne_abs_le_pow (y := u) (N := 2 ^ 50) (by norm_num) (by push_cast; norm_num at hu ⊢; exact hu)
    refine lt_of_le_of_lt this ?_
    push_cast
    norm_num
  have hi : ((rInt (⟨rne (v.val / q.val)⟩ : FP double) : ℤ) : FP double).val ≤ ((rInt (⟨rne (w.val / q.val)⟩ : FP double) : ℤ) : FP double).val := by
    rw [hr hv, hr hw]
    change rne _ ≤ rne _
    exact rne_mono (Int.cast_le.mpr (rInt_mono (rne_mono (div_le_div_of_nonneg_right h hq.le))))
  have dv : ∀ {u t : FP double}, pyDiv u q = .ok t → t = ⟨rne (u.val / q.val)⟩ := fun h => FP.ext (div_of_ok h).1
  refine ⟨fun h1 h2 => ?_, fun h1 h2 => ?_, fun h1 h2 => ?_⟩ <;>
  · obtain ⟨a, ha, h1⟩ := ok_of_bind h1
    obtain ⟨b, hb, h2⟩ := ok_of_bind h2
    obtain rfl := dv ha
    obtain rfl := dv hb
    cases h1
    cases h2
    first
    | exact rne_mono (mul_le_mul_of_nonneg_right hi hq.le)
    | exact rne_mono (mul_le_mul_of_nonneg_right (rne_mono (sub_le_sub_right hi _)) hq.le)
    | exact rne_mono (mul_le_mul_of_nonneg_right (rne_mono (add_le_add_left hi _)) hq.le)

/-- A ball twice as fast with the usual decay: the hypotheses hold. -/
example : ∀ x y : FP double, inertiaFinalDistance ⟨1⟩ ⟨1 / 2⟩ = .ok x → inertiaFinalDistance ⟨2⟩ ⟨1 / 2⟩ = .ok y → x.val ≤ y.val :=
  fun x y => C193_inertia_final _ _ _ _ x y (by norm_num) (by norm_num) le_rfl (by norm_num)

/-- A point nearer to the center is in the circle if the farther one is. -/
example (q : Vec (FP double)) (hx : 1 ≤ |q.x.val|) (hy : 1 ≤ |q.y.val|) (h : (⟨⟨⟨0⟩, ⟨0⟩, true⟩, ⟨3⟩⟩ : Circle (FP double)).contains q = true) :
    (⟨⟨⟨0⟩, ⟨0⟩, true⟩, ⟨4⟩⟩ : Circle (FP double)).contains ⟨⟨1⟩, ⟨-1⟩, true⟩ = true :=
  (C193_circle ⟨⟨⟨0⟩, ⟨0⟩, true⟩, ⟨3⟩⟩ ⟨4⟩ (by norm_num) (by norm_num) ⟨⟨1⟩, ⟨-1⟩, true⟩ q (by simpa using hx) (by simpa using hy) h).1

end PyrusGeom
