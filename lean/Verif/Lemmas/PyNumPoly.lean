import Verif.Lemmas.PyNumShape
import Verif.Model.SoccerMath

/-! # Integers in place of floats: polygons, convex hulls, `soccer_math` -/

namespace PyrusGeom

variable {lit : Bool} {k l j i g f e : ℕ}

section
variable {α β γ δ : Type} [NumSim α β] [NumSim γ δ]

theorem sim_foldl {f : α → γ → α} {f' : β → δ → β} (hf : ∀ a x b y, sim k a x → sim l b y → sim k (f a b) (f' x y)) {s : List γ} {t : List δ}
    (h : sim l s t) : ∀ {a : α} {x : β}, sim k a x → sim k (s.foldl f a) (t.foldl f' x) := by
  induction h with
  | nil => exact fun h => h
  | cons h _ ih => exact fun h' => ih (hf _ _ _ _ h' h)

theorem sim_foldl_same {ι : Type} {f : α → ι → α} {f' : β → ι → β} (hf : ∀ a x b, sim k a x → sim k (f a b) (f' x b)) (s : List ι) :
    ∀ {a : α} {x : β}, sim k a x → sim k (s.foldl f a) (s.foldl f' x) := by
  induction s with
  | nil => exact fun h => h
  | cons b s ih => exact fun h' => ih (hf _ _ _ h')

theorem sim_map {f : α → γ} {f' : β → δ} (hf : ∀ a x, sim k a x → sim l (f a) (f' x)) {s : List α} {t : List β} (h : sim k s t) :
    sim l (s.map f) (t.map f') := by
  induction h with
  | nil => exact .nil
  | cons h _ ih => exact .cons (hf _ _ h) ih

theorem sim_zip {s : List α} {t : List β} (h : sim k s t) : ∀ {s' : List γ} {t' : List δ}, sim k s' t' → sim k (s.zip s') (t.zip t') := by
  induction h with
  | nil => exact fun _ => .nil
  | cons h _ ih =>
    intro s' t' h'
    cases h' with
    | nil => exact .nil
    | cons h2 h' => exact .cons ⟨h, h2⟩ (ih h')

theorem sim_filterMap_same {ι : Type} {f : ι → Option α} {f' : ι → Option β} (hf : ∀ a, sim k (f a) (f' a)) (s : List ι) :
    sim k (s.filterMap f) (s.filterMap f') := by
  induction s with
  | nil => exact .nil
  | cons b s ih =>
    rw [List.filterMap_cons, List.filterMap_cons]
    have h := hf b
    cases e : f b <;> cases e' : f' b <;> rw [e, e'] at h <;> cases h
    · exact ih
    · rename_i h
      exact .cons h ih

theorem sim_getElem? {s : List α} {t : List β} (h : sim k s t) : ∀ n : ℕ, sim k s[n]? t[n]? := by
  induction h with
  | nil => exact fun _ => .none
  | cons h _ ih =>
    intro n
    cases n with
    | zero => exact .some h
    | succ n => exact ih n

theorem sim_set {s : List α} {t : List β} (h : sim k s t) {a : α} {x : β} (ha : sim k a x) : ∀ n : ℕ, sim k (s.set n a) (t.set n x) := by
  induction h with
  | nil => exact fun _ => .nil
  | cons h h' ih =>
    intro n
    cases n with
    | zero => exact .cons ha h'
    | succ n => exact .cons h (ih n)

theorem sim_take {s : List α} {t : List β} (h : sim k s t) : ∀ n : ℕ, sim k (s.take n) (t.take n) := by
  induction h with
  | nil => intro n; rw [List.take_nil, List.take_nil]; exact .nil
  | cons h _ ih =>
    intro n
    cases n with
    | zero => exact .nil
    | succ n => exact .cons h (ih n)

theorem sim_dropLast {s : List α} {t : List β} (h : sim k s t) : sim k s.dropLast t.dropLast := by
  rw [List.dropLast_eq_take, List.dropLast_eq_take, show s.length = t.length from h.length_eq]
  exact sim_take h _

theorem sim_getLast {s : List α} {t : List β} (h : sim k s t) : ∀ (hs : s ≠ []) (ht : t ≠ []), sim k (s.getLast hs) (t.getLast ht) := by
  induction h with
  | nil => exact fun h => absurd rfl h
  | cons h h' ih =>
    intro hs ht
    cases h' with
    | nil => exact h
    | cons h2 h3 => exact ih (List.cons_ne_nil _ _) (List.cons_ne_nil _ _)

theorem sim_cyclicPairs {s : List α} {t : List β} (h : sim k s t) : sim k (cyclicPairs s) (cyclicPairs t) := by
  cases h with
  | nil => exact .nil
  | cons h h' => exact sim_zip (List.Forall₂.cons h h') (List.rel_append h' (.cons h .nil))

theorem sim_chainPairs {s : List α} {t : List β} (h : sim k s t) : sim k (chainPairs s) (chainPairs t) := by
  cases h with
  | nil => exact .nil
  | cons h h' => exact sim_zip (List.Forall₂.cons h h') h'

end

variable [m : PyMath (FP double)]

/-! ## Polygons -/

theorem sim_Poly_default  : sim (0) ((Poly.default : Poly (PyNum lit))) ((Poly.default : Poly (FP double))) := by
  sim_def Poly.default
theorem sim_Poly_ofList {a0 : List (Vec (PyNum lit))} {x0 : List (Vec (FP double))} (h0 : sim k a0 x0) : sim (k) (Poly.ofList a0) (Poly.ofList x0) := by
  exact h0
theorem sim_Poly_addVertex {a0 : Poly (PyNum lit)} {x0 : Poly (FP double)} (h0 : sim k a0 x0) {a1 : Vec (PyNum lit)} {x1 : Vec (FP double)} (h1 : sim l a1 x1) : sim ((max k l)) (Poly.addVertex a0 a1) (Poly.addVertex x0 x1) := by
  sim_def Poly.addVertex

theorem sim_Poly_ofVecs {s : List (Vec (PyNum lit))} {t : List (Vec (FP double))} (h : sim k s t) : sim k (Poly.ofVecs s) (Poly.ofVecs t) :=
  sim_map (fun _ _ h => sim_Vec_copy h) h
theorem sim_Poly_assign {a : Poly (PyNum lit)} {x : Poly (FP double)} (h : sim k a x) {s : List (Vec (PyNum lit))} {t : List (Vec (FP double))}
    (h' : sim l s t) : sim (max k l) (a.assign s) (x.assign t) := by
  unfold Poly.assign
  rw [show s.length = t.length from h'.length_eq]
  split_ifs
  · exact sim_poly (NumSim.mono h' (le_max_right _ _))
  · exact NumSim.mono h (le_max_left _ _)

instance : NumSim (Poly.Bounds (PyNum lit)) (Poly.Bounds (FP double)) :=
  ⟨fun k a b => (sim k a.xMin b.xMin ∧ sim k a.xMax b.xMax) ∧ sim k a.yMin b.yMin ∧ sim k a.yMax b.yMax,
    fun h hk => ⟨⟨NumSim.mono h.1.1 hk, NumSim.mono h.1.2 hk⟩, NumSim.mono h.2.1 hk, NumSim.mono h.2.2 hk⟩⟩

theorem sim_Poly_updMax {a : Option (PyNum lit)} {x : Option (FP double)} (h : sim k a x) {b : PyNum lit} {y : FP double} (h' : sim l b y) :
    sim (max k l) (Poly.updMax a b) (Poly.updMax x y) := by
  unfold Poly.updMax
  cases h with
  | none => exact .some (NumSim.mono h' (le_max_right _ _))
  | some h => dsimp only; sim_tac
theorem sim_Poly_updMin {a : Option (PyNum lit)} {x : Option (FP double)} (h : sim k a x) {b : PyNum lit} {y : FP double} (h' : sim l b y) :
    sim (max k l) (Poly.updMin a b) (Poly.updMin x y) := by
  unfold Poly.updMin
  cases h with
  | none => exact .some (NumSim.mono h' (le_max_right _ _))
  | some h => dsimp only; sim_tac
theorem sim_Poly_boundsStep {a : Poly.Bounds (PyNum lit)} {x : Poly.Bounds (FP double)} (h : sim k a x) {b : Vec (PyNum lit)} {y : Vec (FP double)}
    (h' : sim k b y) : sim k (Poly.boundsStep a b) (Poly.boundsStep x y) := by
  have e : max k k = k := max_self k
  exact ⟨⟨e ▸ sim_Poly_updMin h.1.1 (sim_x h'), e ▸ sim_Poly_updMax h.1.2 (sim_x h')⟩,
    e ▸ sim_Poly_updMin h.2.1 (sim_y h'), e ▸ sim_Poly_updMax h.2.2 (sim_y h')⟩
theorem sim_Poly_boundingBox {a : Poly (PyNum lit)} {x : Poly (FP double)} (h : sim k a x) (hk : k + 1 ≤ 53) :
    sim (k + 1) a.boundingBox x.boundingBox := by
  obtain ⟨s⟩ := a
  obtain ⟨t⟩ := x
  replace h : sim k s t := h
  have hb : sim k (s.foldl Poly.boundsStep {}) (t.foldl Poly.boundsStep {}) :=
    sim_foldl (fun _ _ _ _ h h' => sim_Poly_boundsStep h h') h ⟨⟨.none, .none⟩, .none, .none⟩
  unfold Poly.boundingBox
  cases h with
  | nil => exact .error _
  | @cons v w s t h h' =>
    dsimp only
    generalize (v :: s).foldl Poly.boundsStep {} = b at hb ⊢
    generalize (w :: t).foldl Poly.boundsStep {} = b' at hb ⊢
    obtain ⟨b1, b2, b3, b4⟩ := b
    obtain ⟨c1, c2, c3, c4⟩ := b'
    obtain ⟨⟨e1, e2⟩, e3, e4⟩ := hb
    dsimp only at e1 e2 e3 e4 ⊢
    cases e1 with
    | none => exact .error _
    | some e1 =>
      cases e2 with
      | none => exact .error _
      | some e2 =>
        cases e3 with
        | none => exact .error _
        | some e3 =>
          cases e4 with
          | none => exact .error _
          | some e4 =>
            dsimp only
            sim_tac
theorem isFlt_sqrt (a : PyNum lit) : PyNum.IsFlt (PyMath.sqrt a) := ⟨_, rfl⟩
theorem sim_Poly_halfLine {b : Rect (PyNum lit)} {b' : Rect (FP double)} {v p : Vec (PyNum lit)} {w q : Vec (FP double)} (h : sim k b b')
    (h1 : sim l v w) (h2 : sim j p q) (hk : 2 * max k (max l j) + 17 ≤ 53) : sim j (Poly.halfLine b v p) (Poly.halfLine b' w q) := by
  unfold Poly.halfLine
  have e : sim 0 (p.x + ((b.right - b.left + b.bottom - b.top) + (v.sub p).r) * num 3)
      (q.x + ((b'.right - b'.left + b'.bottom - b'.top) + (w.sub q).r) * num 3) := by
    refine PyNum.sim_isFlt (k := max k (max l j) + 17) ?_ (PyNum.IsFlt.add_right (PyNum.IsFlt.mul_left (PyNum.IsFlt.add_right (isFlt_sqrt _) _) _) _)
    sim_tac
  sim_tac
theorem sim_Poly_containsLoop {p : Vec (PyNum lit)} {q : Vec (FP double)} (hp : sim k p q) (b : Bool) {s : Seg (PyNum lit)} {t : Seg (FP double)}
    (hs : sim k s t) (hk : 4 * k + 6 ≤ 53) {es : List (Vec (PyNum lit) × Vec (PyNum lit))} {fs : List (Vec (FP double) × Vec (FP double))}
    (h : sim k es fs) : ∀ c : Bool, Poly.containsLoop p b s es c = Poly.containsLoop q b t fs c := by
  induction h with
  | nil => exact fun c => rfl
  | @cons e f es fs h _ ih =>
    intro c
    obtain ⟨p0, p1⟩ := e
    obtain ⟨q0, q1⟩ := f
    have h0 : sim k p0 q0 := h.1
    have h1 : sim k p1 q1 := h.2
    have ihc : sim 0 (Poly.containsLoop p b s es c) (Poly.containsLoop q b t fs c) := ih c
    have ihn : sim 0 (Poly.containsLoop p b s es (!c)) (Poly.containsLoop q b t fs (!c)) := ih (!c)
    have : sim 0 (Poly.containsLoop p b s ((p0, p1) :: es) c) (Poly.containsLoop q b t ((q0, q1) :: fs) c) := by
      rw [Poly.containsLoop, Poly.containsLoop]
      sim_tac
    exact this
theorem sim_Poly_contains {a : Poly (PyNum lit)} {x : Poly (FP double)} (h : sim k a x) {p : Vec (PyNum lit)} {q : Vec (FP double)} (hp : sim l p q)
    (b : Bool) (hk : 4 * max k l + 6 ≤ 53) : sim 0 (a.contains p b) (x.contains q b) := by
  have hbb := sim_Poly_boundingBox h (by omega)
  obtain ⟨s⟩ := a
  obtain ⟨t⟩ := x
  replace h : sim k s t := h
  unfold Poly.contains
  dsimp only
  generalize (Poly.mk s).boundingBox = c at hbb ⊢
  generalize (Poly.mk t).boundingBox = d at hbb ⊢
  cases h with
  | nil => exact sim_bool _
  | @cons v w s t h h' =>
    have h0 : sim k v w := h
    cases h' with
    | nil => dsimp only; sim_tac
    | @cons v1 w1 s t h1 h' =>
      cases hbb with
      | error => exact sim_bool _
      | @ok c d hbb =>
        have hc : sim (k + 1) c d := hbb
        have hl : Poly.containsLoop p b (Poly.halfLine c v p) (cyclicPairs (v :: v1 :: s)) false =
            Poly.containsLoop q b (Poly.halfLine d w q) (cyclicPairs (w :: w1 :: t)) false := by
          refine sim_Poly_containsLoop (k := max k l) (NumSim.mono hp (le_max_right _ _)) b ?_ hk ?_ false
          · exact NumSim.mono (sim_Poly_halfLine hc h0 hp (by omega)) (le_max_right _ _)
          · exact NumSim.mono (sim_cyclicPairs (.cons h (.cons h1 h'))) (le_max_left _ _)
        dsimp only
        rw [hl]
        have h9 : sim 0 (Poly.containsLoop q b (Poly.halfLine d w q) (cyclicPairs (w :: w1 :: t)) false)
          (Poly.containsLoop q b (Poly.halfLine d w q) (cyclicPairs (w :: w1 :: t)) false) := sim_bool _
        sim_tac
theorem sim_Poly_distStep {p : Vec (PyNum lit)} {q : Vec (FP double)} (hp : sim l p q) {a : Option (PyNum lit)} {x : Option (FP double)} (h : sim 0 a x)
    {e : Vec (PyNum lit) × Vec (PyNum lit)} {f : Vec (FP double) × Vec (FP double)} (h' : sim k e f) (hk : 2 * max k l + 3 ≤ 53) :
    sim 0 (Poly.distStep p a e) (Poly.distStep q x f) := by
  sim_def Poly.distStep
theorem sim_Poly_dist {a : Poly (PyNum lit)} {x : Poly (FP double)} (h : sim k a x) {p : Vec (PyNum lit)} {q : Vec (FP double)} (hp : sim l p q)
    (b : Bool) (hk : 4 * max k l + 6 ≤ 53) : sim 0 (a.dist p b) (x.dist q b) := by
  have hc : a.contains p true = x.contains q true := sim_Poly_contains h hp true hk
  obtain ⟨s⟩ := a
  obtain ⟨t⟩ := x
  replace h : sim k s t := h
  have hf : sim 0 ((chainPairs s).foldl (Poly.distStep p) none) ((chainPairs t).foldl (Poly.distStep q) none) :=
    sim_foldl (fun _ _ _ _ h1 h2 => sim_Poly_distStep hp h1 h2 (by omega)) (sim_chainPairs h) .none
  have hz : sim 0 (some (num 0 : PyNum lit)) (some (num 0 : FP double)) := sim_some PyNum.sim_num0
  unfold Poly.dist
  dsimp only at hc ⊢
  cases h with
  | nil => rw [hc]; split_ifs <;> assumption
  | @cons v w s t h h' =>
    have h0 : sim k v w := h
    cases h' with
    | nil => dsimp only; sim_tac
    | @cons v1 w1 s t h1 h' =>
      dsimp only
      rw [hc]
      cases h' with
      | nil => split_ifs <;> assumption
      | @cons v2 w2 s t h2 h' =>
        split_ifs
        · exact hz
        · refine sim_Poly_distStep (k := k) hp hf ?_ (by omega)
          exact ⟨sim_getLast (List.Forall₂.cons h2 h') _ _, h⟩

/-- The terms of a sum of `int`s are at most `B`, so the sum of `n` of them is at most `n * B`. -/
theorem sim_sum {γ δ : Type} [NumSim γ δ] {B : ℕ} {f : γ → PyNum lit} {f' : δ → FP double}
    (hf : ∀ a x, sim l a x → sim k (f a) (f' x)) (hB : 2 ^ k ≤ B) {s : List γ} {t : List δ} (h : sim l s t) :
    ∀ {a : PyNum lit} {x : FP double} {n : ℕ}, (n + s.length) * B ≤ 2 ^ 53 → sim 53 a x → (∀ z, a = .int z → |z| ≤ n * B) →
      sim 53 (s.foldl (fun acc e => acc + f e) a) (t.foldl (fun acc e => acc + f' e) x) := by
  induction h with
  | nil => exact fun _ h _ => h
  | @cons b y s t hb _ ih =>
    intro a x n hn ha hz
    have hb' := hf _ _ hb
    have hlen : (n + 1) * B ≤ 2 ^ 53 := le_trans (Nat.mul_le_mul_right _ (by simp)) hn
    have hk : k ≤ 53 := by
      refine (Nat.pow_le_pow_iff_right (by norm_num : 1 < 2)).mp (hB.trans (le_trans ?_ hlen))
      exact Nat.le_mul_of_pos_left _ (by omega)
    rw [List.foldl_cons, List.foldl_cons]
    have hsum : ∀ z w, a = .int z → f b = .int w → |z + w| ≤ ((n + 1 : ℕ) : ℤ) * B := by
      intro z w hz' hw
      rw [hw] at hb'
      have h1 := hz z hz'
      have h2 : |w| ≤ (B : ℤ) := hb'.2.trans (by exact_mod_cast hB)
      have h3 := abs_add_le z w
      push_cast
      linarith
    refine ih (n := n + 1) ?_ ?_ ?_
    · refine le_trans (le_of_eq ?_) hn
      rw [List.length_cons]
      ring
    · have e1 := PyNum.NumSim.toF ha le_rfl
      have e2 := PyNum.NumSim.toF hb' hk
      cases hza : a with
      | int z =>
        cases hwb : f b with
        | int w =>
          have h1 := hsum z w hza hwb
          rw [hza] at ha
          rw [hwb] at hb'
          have h2 : |z + w| ≤ 2 ^ 53 := h1.trans (by exact_mod_cast hlen)
          refine ⟨?_, h2⟩
          change _ = rne (x.val + (f' y).val)
          rw [← ha.1, ← hb'.1, ← Int.cast_add, PyNum.rne_small h2 le_rfl]
        | flt w => rw [← e1, ← e2, hza, hwb]; rfl
      | flt z => rw [← e1, ← e2, hza]; cases f b <;> rfl
    · intro z hz'
      cases hza : a with
      | int u =>
        cases hwb : f b with
        | int w =>
          rw [hza, hwb] at hz'
          have : u + w = z := by injection hz'
          rw [← this]
          exact hsum u w hza hwb
        | flt w => rw [hza, hwb] at hz'; cases hz'
      | flt u => rw [hza] at hz'; cases hb : f b <;> rw [hb] at hz' <;> cases hz'

theorem sim_Poly_doubleSignedArea {a : Poly (PyNum lit)} {x : Poly (FP double)} (h : sim k a x) (hk : a.vertices.length * 2 ^ (2 * k + 1) ≤ 2 ^ 53) :
    sim 53 a.doubleSignedArea x.doubleSignedArea := by
  have h' : sim k a.vertices x.vertices := h
  unfold Poly.doubleSignedArea
  rw [show a.vertices.length = x.vertices.length from List.Forall₂.length_eq h'] at *
  split_ifs with hc
  · exact NumSim.mono PyNum.sim_num0 (Nat.zero_le _)
  · have h2 : 2 * k + 1 ≤ 53 := by
      refine (Nat.pow_le_pow_iff_right (by norm_num : 1 < 2)).mp (le_trans ?_ hk)
      exact Nat.le_mul_of_pos_left _ (by omega)
    have hl : (cyclicPairs a.vertices).length = x.vertices.length := by
      rw [← show a.vertices.length = x.vertices.length from List.Forall₂.length_eq h']
      cases a.vertices with
      | nil => rfl
      | cons b s => simp [cyclicPairs]
    refine sim_sum (k := 2 * k + 1) (B := 2 ^ (2 * k + 1)) (n := 0) ?_ le_rfl (sim_cyclicPairs h') ?_ (NumSim.mono PyNum.sim_num0 (Nat.zero_le _)) ?_
    · intro e f he
      sim_tac
    · rw [hl, zero_add]; exact hk
    · intro z hz
      have := (NumSim.mono (l := 0) (PyNum.sim_num0 (lit := lit)) le_rfl)
      rw [hz] at this
      have h3 : ((z : ℤ) : ℝ) = ((0 : ℕ) : FP double).val := this.1
      rw [show ((0 : ℕ) : FP double).val = rne ((0 : ℕ) : ℝ) from rfl, rne_of_isDouble (isDouble_nat (by norm_num))] at h3
      have h4 : z = 0 := by exact_mod_cast h3
      rw [h4]; simp

theorem sim_Poly_area {a : Poly (PyNum lit)} {x : Poly (FP double)} (h : sim k a x) (hk : a.vertices.length * 2 ^ (2 * k + 1) ≤ 2 ^ 53) :
    sim 53 a.area x.area := by
  have h1 := sim_Poly_doubleSignedArea h hk
  sim_def Poly.area
theorem sim_Poly_isCounterClockwise {a : Poly (PyNum lit)} {x : Poly (FP double)} (h : sim k a x)
    (hk : a.vertices.length * 2 ^ (2 * k + 1) ≤ 2 ^ 53) : sim 0 a.isCounterClockwise x.isCounterClockwise := by
  have h1 := sim_Poly_doubleSignedArea h hk
  sim_def Poly.isCounterClockwise
theorem sim_Poly_isClockwise {a : Poly (PyNum lit)} {x : Poly (FP double)} (h : sim k a x)
    (hk : a.vertices.length * 2 ^ (2 * k + 1) ≤ 2 ^ 53) : sim 0 a.isClockwise x.isClockwise := by
  have h1 := sim_Poly_doubleSignedArea h hk
  sim_def Poly.isClockwise

theorem eq_of_sim {a b : Bool} (h : sim k a b) : a = b := h

theorem sim_Poly_clipLoop {f : Vec (PyNum lit) → Bool} {f' : Vec (FP double) → Bool} (hf : ∀ a x, sim k a x → f a = f' x) {a : Line (PyNum lit)}
    {x : Line (FP double)} (ha : sim l a x) (hk : 2 * k + l + 3 ≤ 53) {es : List (Vec (PyNum lit) × Vec (PyNum lit))}
    {fs : List (Vec (FP double) × Vec (FP double))} (h : sim k es fs) :
    ∀ {s : List (Vec (PyNum lit))} {t : List (Vec (FP double))}, sim k s t → sim k (Poly.clipLoop f a es s) (Poly.clipLoop f' x fs t) := by
  induction h with
  | nil => exact fun h => h
  | @cons e g es gs h _ ih =>
    intro s t hs
    obtain ⟨p0, p1⟩ := e
    obtain ⟨q0, q1⟩ := g
    have h0 : sim k p0 q0 := h.1
    have h1 : sim k p1 q1 := h.2
    have hcut : sim 0 (a.intersection (Line.ofPoints p0 p1)) (x.intersection (Line.ofPoints q0 q1)) := by sim_tac
    have hc' := NumSim.mono hcut (Nat.zero_le k)
    have hv : (a.intersection (Line.ofPoints p0 p1)).valid = (x.intersection (Line.ofPoints q0 q1)).valid := hcut.2.2
    rw [Poly.clipLoop, Poly.clipLoop]
    dsimp only
    rw [hf _ _ h0, hf _ _ h1, hv]
    split_ifs
    · exact ih (List.rel_append hs (.cons h1 .nil))
    · exact hs
    · exact ih (List.rel_append hs (.cons hc' .nil))
    · exact hs
    · exact ih (List.rel_append hs (.cons hc' (.cons h1 .nil)))
    · exact ih hs

theorem sim_Poly_lineClipped {f : Vec (PyNum lit) → Bool} {f' : Vec (FP double) → Bool} (hf : ∀ a x, sim k a x → f a = f' x) {a : Line (PyNum lit)}
    {x : Line (FP double)} (ha : sim l a x) (hk : 2 * k + l + 3 ≤ 53) {s : List (Vec (PyNum lit))} {t : List (Vec (FP double))} (h : sim k s t) :
    sim k (Poly.lineClipped f s a) (Poly.lineClipped f' t x) := sim_Poly_clipLoop hf ha hk (sim_cyclicPairs h) .nil

theorem sim_Poly_rectClipped {a : Poly (PyNum lit)} {x : Poly (FP double)} (h : sim k a x) {r : Rect (PyNum lit)} {r' : Rect (FP double)} (hr : sim l r r')
    (hk : 2 * k + l + 14 ≤ 53) : sim k (a.rectClipped r) (x.rectClipped r') := by
  obtain ⟨s⟩ := a
  obtain ⟨t⟩ := x
  replace h : sim k s t := h
  have l1 : sim (l + 2) (Line.ofAngle (Vec.ofXY r.right (num 0)) (AngleDeg.ofNum (num 90))) (Line.ofAngle (Vec.ofXY r'.right (num 0)) (AngleDeg.ofNum (num 90))) := by
    sim_tac
  have l2 : sim (l + 2) (Line.ofAngle (Vec.ofXY (num 0) r.top) (AngleDeg.ofNum (num 0))) (Line.ofAngle (Vec.ofXY (num 0) r'.top) (AngleDeg.ofNum (num 0))) := by
    sim_tac
  have l3 : sim (l + 2) (Line.ofAngle (Vec.ofXY r.left (num 0)) (AngleDeg.ofNum (num 90))) (Line.ofAngle (Vec.ofXY r'.left (num 0)) (AngleDeg.ofNum (num 90))) := by
    sim_tac
  have c1 : ∀ (v : Vec (PyNum lit)) (w : Vec (FP double)), sim k v w → decide (v.x ≤ r.right) = decide (w.x ≤ r'.right) := by
    intro v w hv; refine eq_of_sim (k := 0) ?_; sim_tac
  have c2 : ∀ (v : Vec (PyNum lit)) (w : Vec (FP double)), sim k v w → decide (v.y ≤ r.bottom) = decide (w.y ≤ r'.bottom) := by
    intro v w hv; refine eq_of_sim (k := 0) ?_; sim_tac
  have c3 : ∀ (v : Vec (PyNum lit)) (w : Vec (FP double)), sim k v w → decide (r.left ≤ v.x) = decide (r'.left ≤ w.x) := by
    intro v w hv; refine eq_of_sim (k := 0) ?_; sim_tac
  have c4 : ∀ (v : Vec (PyNum lit)) (w : Vec (FP double)), sim k v w → decide (r.top ≤ v.y) = decide (r'.top ≤ w.y) := by
    intro v w hv; refine eq_of_sim (k := 0) ?_; sim_tac
  unfold Poly.rectClipped
  cases h with
  | nil => exact NumSim.mono sim_Poly_default (Nat.zero_le _)
  | cons h h' =>
    have h0 := List.Forall₂.cons h h'
    exact sim_Poly_lineClipped c4 l2 (by omega) (sim_Poly_lineClipped c3 l3 (by omega) (sim_Poly_lineClipped c2 l2 (by omega)
      (sim_Poly_lineClipped c1 l1 (by omega) h0)))

/-! ## Convex hulls -/

namespace Hull

theorem sim_at {s : List (Vec (PyNum lit))} {t : List (Vec (FP double))} (h : sim k s t) (n : ℕ) : sim k (at' s n) (at' t n) := by
  have h1 := sim_getElem? h n
  unfold at'
  rw [List.getD_eq_getElem?_getD, List.getD_eq_getElem?_getD]
  cases e1 : s[n]? <;> cases e2 : t[n]? <;> rw [e1, e2] at h1 <;> cases h1
  · exact NumSim.mono sim_Vec_zero (Nat.zero_le _)
  · assumption

theorem sim_angleSortPredicate {a b c : Vec (PyNum lit)} {x y z : Vec (FP double)} (h : sim k a x) (h' : sim k b y) (h2 : sim k c z)
    (hk : 2 * k + 3 ≤ 53) : angleSortPredicate a b c = angleSortPredicate x y z := by
  have h1 : Tri.dsa c a b < num 0 ↔ Tri.dsa z x y < num 0 := PyNum.sim_lt (sim_Tri_dsa h2 h h' (by omega)) PyNum.sim_num0
  have h3 : Tri.dsa c a b < EPSILON ↔ Tri.dsa z x y < EPSILON := PyNum.sim_lt (sim_Tri_dsa h2 h h' (by omega)) sim_EPSILON
  have h4 : c.y < a.y ↔ z.y < x.y := PyNum.sim_lt (sim_y h2) (sim_y h)
  have h5 : c.dist2 b < c.dist2 a ↔ z.dist2 y < z.dist2 x := PyNum.sim_lt (sim_Vec_dist2 h2 h' (by omega)) (sim_Vec_dist2 h2 h (by omega))
  have h6 : c.dist2 a < c.dist2 b ↔ z.dist2 x < z.dist2 y := PyNum.sim_lt (sim_Vec_dist2 h2 h (by omega)) (sim_Vec_dist2 h2 h' (by omega))
  unfold angleSortPredicate
  simp only [h1, h3, h4, h5, h6]

theorem sim_isClockwise {a b c : Vec (PyNum lit)} {x y z : Vec (FP double)} (h : sim k a x) (h' : sim k b y) (h2 : sim k c z)
    (hk : 2 * k + 3 ≤ 53) : isClockwise a b c = isClockwise x y z := by
  have : sim 0 (isClockwise a b c) (isClockwise x y z) := by sim_def isClockwise
  exact this

theorem sim_minPointIndex {s : List (Vec (PyNum lit))} {t : List (Vec (FP double))} (h : sim k s t) : minPointIndex s = minPointIndex t := by
  unfold minPointIndex
  rw [show s.length = t.length from h.length_eq]
  have : sim k ((List.range t.length).foldl (minStep s) (0, at' s 0)) ((List.range t.length).foldl (minStep t) (0, at' t 0)) := by
    refine sim_foldl_same ?_ _ ⟨rfl, sim_at h 0⟩
    intro a x n ha
    have h0 := sim_at h n
    have h1 : sim k a.2 x.2 := ha.2
    have : (decide ((at' s n).x < a.2.x) || (a.2.x == (at' s n).x && decide ((at' s n).y < a.2.y))) =
        (decide ((at' t n).x < x.2.x) || (x.2.x == (at' t n).x && decide ((at' t n).y < x.2.y))) := by
      refine eq_of_sim (k := 0) ?_
      sim_tac
    unfold minStep
    dsimp only
    rw [this]
    split_ifs
    · exact ⟨rfl, h0⟩
    · exact ha
  rw [show ((List.range t.length).foldl (minStep s) (0, at' s 0)).1 = ((List.range t.length).foldl (minStep t) (0, at' t 0)).1 from this.1]

theorem sim_nextIndex {s : List (Vec (PyNum lit))} {t : List (Vec (FP double))} (h : sim k s t) (hk : 2 * k + 3 ≤ 53) (n : ℕ) (used : List ℕ) :
    nextIndex s n used = nextIndex t n used := by
  have : candStep s n (at' s n) used = candStep t n (at' t n) used := by
    funext c i
    have h0 := sim_at h n
    have h1 := sim_at h c
    have h2 := sim_at h i
    have e1 : Tri.dsa (at' s n) (at' s c) (at' s i) < num 0 ↔ Tri.dsa (at' t n) (at' t c) (at' t i) < num 0 :=
      PyNum.sim_lt (sim_Tri_dsa h0 h1 h2 (by omega)) PyNum.sim_num0
    have e2 : (decide (Tri.dsa (at' s n) (at' s c) (at' s i) < EPSILON) && decide ((at' s n).dist2 (at' s i) < (at' s n).dist2 (at' s c))) =
        (decide (Tri.dsa (at' t n) (at' t c) (at' t i) < EPSILON) && decide ((at' t n).dist2 (at' t i) < (at' t n).dist2 (at' t c))) := by
      refine eq_of_sim (k := 0) ?_
      sim_tac
    unfold candStep
    simp only [e1, e2]
  unfold nextIndex
  rw [show s.length = t.length from h.length_eq, this]

theorem sim_wrapLoop {s : List (Vec (PyNum lit))} {t : List (Vec (FP double))} (h : sim k s t) (hk : 2 * k + 3 ≤ 53) (mi : ℕ) (fuel : ℕ) :
    ∀ (n : ℕ) (used : List ℕ) {u : List (Vec (PyNum lit))} {v : List (Vec (FP double))}, sim k u v →
      sim k (wrapLoop s mi fuel n used u) (wrapLoop t mi fuel n used v) := by
  induction fuel with
  | zero => exact fun _ _ _ _ h => h
  | succ fuel ih =>
    intro n used u v hu
    rw [wrapLoop, wrapLoop]
    rw [sim_nextIndex h hk]
    have h1 : sim k (u ++ [at' s (nextIndex t n used)]) (v ++ [at' t (nextIndex t n used)]) := List.rel_append hu (.cons (sim_at h _) .nil)
    split_ifs
    · exact h1
    · exact ih _ _ h1

theorem sim_hullEdges {s : List (Vec (PyNum lit))} {t : List (Vec (FP double))} (h : sim k s t) : sim k (hullEdges s) (hullEdges t) := by
  unfold hullEdges
  rw [show s.length = t.length from h.length_eq]
  refine sim_filterMap_same (fun n => ?_) _
  have h0 := sim_at h n
  have h1 := sim_at h (t.length - 1)
  have h2 := sim_at h (n + 1)
  sim_tac

instance : NumSim (Obj (PyNum lit)) (Obj (FP double)) :=
  ⟨fun k a b => (sim k a.input b.input ∧ sim k a.verts b.verts) ∧ sim k a.edges b.edges ∧ a.aliased = b.aliased,
    fun h hk => ⟨⟨NumSim.mono h.1.1 hk, NumSim.mono h.1.2 hk⟩, NumSim.mono h.2.1 hk, h.2.2⟩⟩

theorem sim_ofList {s : List (Vec (PyNum lit))} {t : List (Vec (FP double))} (h : sim k s t) : sim k (Obj.ofList s) (Obj.ofList t) :=
  ⟨⟨h, .nil⟩, .nil, rfl⟩
theorem sim_vertices {a : Obj (PyNum lit)} {x : Obj (FP double)} (h : sim k a x) : sim k a.vertices x.vertices := by
  unfold Obj.vertices
  rw [show a.aliased = x.aliased from h.2.2]
  split_ifs
  · exact h.1.1
  · exact h.1.2
theorem sim_toPolygon {a : Obj (PyNum lit)} {x : Obj (FP double)} (h : sim k a x) : sim k a.toPolygon x.toPolygon := sim_vertices h
theorem sim_clearResults {a : Obj (PyNum lit)} {x : Obj (FP double)} (h : sim k a x) : sim k a.clearResults x.clearResults := by
  unfold Obj.clearResults
  rw [show a.aliased = x.aliased from h.2.2]
  split_ifs
  · exact ⟨⟨.nil, h.1.2⟩, .nil, rfl⟩
  · exact ⟨⟨h.1.1, .nil⟩, .nil, rfl⟩
theorem sim_clear {a : Obj (PyNum lit)} {x : Obj (FP double)} (h : sim k a x) : sim k a.clear x.clear :=
  have h1 := sim_clearResults h
  ⟨⟨.nil, h1.1.2⟩, h1.2.1, h1.2.2⟩
theorem sim_addPoint {a : Obj (PyNum lit)} {x : Obj (FP double)} (h : sim k a x) {b : Vec (PyNum lit)} {y : Vec (FP double)} (h' : sim k b y) :
    sim k (a.addPoint b) (x.addPoint y) := ⟨⟨List.rel_append h.1.1 (.cons h' .nil), h.1.2⟩, h.2⟩
theorem sim_addPoints {a : Obj (PyNum lit)} {x : Obj (FP double)} (h : sim k a x) {s : List (Vec (PyNum lit))} {t : List (Vec (FP double))}
    (h' : sim k s t) : sim k (a.addPoints s) (x.addPoints t) := sim_foldl (fun _ _ _ _ h h' => sim_addPoint h h') h' h

theorem sim_wrapping {a : Obj (PyNum lit)} {x : Obj (FP double)} (h : sim k a x) (hk : 2 * k + 3 ≤ 53) : sim k (wrapping a) (wrapping x) := by
  have h0 := sim_clearResults h
  have h1 : sim k a.clearResults.input x.clearResults.input := h0.1.1
  unfold wrapping
  dsimp only
  rw [sim_minPointIndex h1, show a.clearResults.input.length = x.clearResults.input.length from h1.length_eq]
  split_ifs
  · exact h0
  · have h2 := sim_wrapLoop h1 hk (minPointIndex x.clearResults.input).toNat (x.clearResults.input.length + 1)
      (minPointIndex x.clearResults.input).toNat [] (List.Forall₂.cons (sim_at h1 (minPointIndex x.clearResults.input).toNat) .nil)
    exact ⟨⟨h1, sim_dropLast h2⟩, sim_hullEdges h2, rfl⟩

theorem sim_pyGet {α β : Type} [NumSim α β] {s : List α} {t : List β} (h : sim k s t) (n : ℤ) : sim k (pyGet s n) (pyGet t n) := by
  have h1 := sim_getElem? h
  unfold pyGet
  rw [show s.length = t.length from h.length_eq]
  dsimp only
  generalize (if n < 0 then n + (t.length : ℤ) else n) = c
  split_ifs
  · exact .error _
  · have h1 := sim_getElem? h c.toNat
    cases e1 : s[c.toNat]? <;> cases e2 : t[c.toNat]? <;> rw [e1, e2] at h1 <;> cases h1
    · exact .error _
    · rename_i h1; exact .ok h1

theorem sim_pySet {α β : Type} [NumSim α β] {s : List α} {t : List β} (h : sim k s t) (n : ℤ) {a : α} {x : β} (ha : sim k a x) :
    sim k (pySet s n a) (pySet t n x) := by
  unfold pySet
  rw [show s.length = t.length from h.length_eq]
  dsimp only
  split_ifs <;> first | exact .error _ | exact .ok (sim_set h ha _)

theorem sim_grahamWhile {s : List (Vec (PyNum lit))} {t : List (Vec (FP double))} (h : sim k s t) {p : Vec (PyNum lit)} {q : Vec (FP double)}
    (hp : sim k p q) (hk : 2 * k + 3 ≤ 53) (fuel : ℕ) : ∀ top : ℤ, sim 0 (grahamWhile s p fuel top) (grahamWhile t q fuel top) := by
  induction fuel with
  | zero => exact fun _ => .error _
  | succ fuel ih =>
    intro top
    rw [grahamWhile, grahamWhile]
    refine sim_bind (sim_pyGet h _) fun a x ha => sim_bind (sim_pyGet h _) fun b y hb => ?_
    rw [sim_isClockwise ha hb hp hk]
    split_ifs
    · exact .ok rfl
    · exact ih _

theorem sim_grahamFor (hk : 2 * k + 3 ≤ 53) (is : List ℕ) : ∀ {s : List (Vec (PyNum lit))} {t : List (Vec (FP double))} (top : ℤ), sim k s t →
    sim k (grahamFor is s top) (grahamFor is t top) := by
  induction is with
  | nil => exact fun top h => .ok ⟨h, rfl⟩
  | cons i is ih =>
    intro s t top h
    rw [grahamFor, grahamFor]
    refine sim_bind (sim_pyGet h _) fun a x ha => ?_
    rw [show s.length = t.length from h.length_eq]
    refine sim_bind (sim_grahamWhile h ha hk _ _) fun n n' hn => ?_
    obtain rfl : n = n' := hn
    refine sim_bind (sim_pyGet h _) fun b y hb => sim_bind (sim_pyGet h _) fun c z hc => ?_
    exact sim_bind (sim_pySet h _ hc) fun d w hd => sim_bind (sim_pySet hd _ hb) fun d' w' hd' => ih _ hd'

/-- The sorting functions on the two sides are the same function of the comparison. -/
def SortRel (k : ℕ) (srt : (Vec (PyNum lit) → Vec (PyNum lit) → Bool) → List (Vec (PyNum lit)) → List (Vec (PyNum lit)))
    (srt' : (Vec (FP double) → Vec (FP double) → Bool) → List (Vec (FP double)) → List (Vec (FP double))) : Prop :=
  ∀ lt lt', (∀ a x b y, sim k a x → sim k b y → lt a b = lt' x y) → ∀ s t, sim k s t → sim k (srt lt s) (srt' lt' t)

theorem exists_pairs {α β : Type} {R : α → β → Prop} {s : List α} {t : List β} (h : List.Forall₂ R s t) :
    ∃ ps : List (α × β), ps.map Prod.fst = s ∧ ps.map Prod.snd = t ∧ ∀ p ∈ ps, R p.1 p.2 := by
  induction h with
  | nil => exact ⟨[], rfl, rfl, by simp⟩
  | @cons a b s t h _ ih =>
    obtain ⟨ps, h1, h2, h3⟩ := ih
    refine ⟨(a, b) :: ps, by rw [List.map_cons, h1], by rw [List.map_cons, h2], ?_⟩
    intro p hp
    rcases List.mem_cons.mp hp with rfl | hp
    · exact h
    · exact h3 p hp

omit m in
/-- Python's sort, as a stable merge sort, is such a function. -/
theorem sortRel_mergeSort : SortRel (lit := lit) k (fun lt s => s.mergeSort fun a b => !lt b a) (fun lt s => s.mergeSort fun a b => !lt b a) := by
  intro lt lt' hlt s t h
  obtain ⟨ps, rfl, rfl, hp⟩ := exists_pairs h
  dsimp only
  rw [← List.map_mergeSort (r := fun p q : Vec (PyNum lit) × Vec (FP double) => !lt q.1 p.1) (fun a _ b _ => rfl),
    ← List.map_mergeSort (r := fun p q : Vec (PyNum lit) × Vec (FP double) => !lt q.1 p.1)
      (fun a ha b hb => by rw [hlt _ _ _ _ (hp b hb) (hp a ha)])]
  have hp' : ∀ p ∈ ps.mergeSort fun p q => !lt q.1 p.1, sim k p.1 p.2 := fun p h => hp p (List.mem_mergeSort.mp h)
  generalize (ps.mergeSort fun p q => !lt q.1 p.1) = qs at hp'
  induction qs with
  | nil => exact .nil
  | cons q qs ih => exact .cons (hp' q List.mem_cons_self) (ih fun p h => hp' p (List.mem_cons_of_mem _ h))

section
variable {srt : (Vec (PyNum lit) → Vec (PyNum lit) → Bool) → List (Vec (PyNum lit)) → List (Vec (PyNum lit))}
  {srt' : (Vec (FP double) → Vec (FP double) → Bool) → List (Vec (FP double)) → List (Vec (FP double))}

theorem sim_less (hk : 2 * k + 3 ≤ 53) (a : Vec (PyNum lit)) (x : Vec (FP double)) (b : Vec (PyNum lit)) (y : Vec (FP double)) (h : sim k a x) (h' : sim k b y) :
    decide (angleSortPredicate a b Vec.zero < 0) = decide (angleSortPredicate x y Vec.zero < 0) := by
  rw [sim_angleSortPredicate h h' (NumSim.mono sim_Vec_zero (Nat.zero_le _)) hk]

theorem sim_sortFrom (hs : SortRel k srt srt') (hk : 2 * k + 3 ≤ 53) {s : List (Vec (PyNum lit))} {t : List (Vec (FP double))} (h : sim k s t) (n : ℕ) :
    sim k (sortFrom srt s n) (sortFrom srt' t n) := by
  unfold sortFrom
  rw [show s.length = t.length from h.length_eq]
  split_ifs
  · exact h
  · exact hs _ _ (sim_less hk) _ _ (sim_set (sim_set h (sim_at h _) _) (sim_at h _) _)

theorem sim_graham (hs : SortRel k srt srt') {a : Obj (PyNum lit)} {x : Obj (FP double)} (h : sim k a x) (hk : 2 * k + 3 ≤ 53) :
    sim k (graham srt a) (graham srt' x) := by
  have h0 := sim_clearResults h
  have h1 : sim k a.clearResults.input x.clearResults.input := h0.1.1
  unfold graham
  dsimp only
  rw [sim_minPointIndex h1, show a.clearResults.input.length = x.clearResults.input.length from h1.length_eq]
  split_ifs
  · exact .ok h0
  · refine sim_bind (sim_grahamFor hk _ _ (sim_sortFrom hs hk h1 _)) fun c z hc => ?_
    obtain ⟨vs, top⟩ := c
    obtain ⟨ws, top'⟩ := z
    obtain rfl : top = top' := hc.2
    have h2 : sim k vs ws := hc.1
    have h3 : sim k (pyDelFrom vs (top + 1)) (pyDelFrom ws (top + 1)) := by
      unfold pyDelFrom
      rw [show vs.length = ws.length from h2.length_eq]
      exact sim_take h2 _
    refine sim_bind (sim_pyGet h3 _) fun b y hb => sim_bind (sim_pyGet h3 _) fun d w hd => ?_
    refine .ok ⟨⟨h3, .nil⟩, ?_, rfl⟩
    exact List.rel_append (sim_hullEdges h3) (.cons (NumSim.mono (sim_Seg_ofPoints hb hd) (max_le le_rfl le_rfl)) .nil)

theorem sim_directK {s : List (Vec (PyNum lit))} {t : List (Vec (FP double))} (h : sim k s t) (hk : 4 * k + 6 ≤ 53) (n n' : ℕ) {r p : Vec (PyNum lit)}
    {r' p' : Vec (FP double)} (hr : sim (k + 1) r r') (hp : sim k p p') (ks : List ℕ) : ∀ {a : PyNum lit} {x : FP double}, sim (2 * k + 3) a x →
      sim (2 * k + 3) (directK s n n' r p ks a) (directK t n n' r' p' ks x) := by
  induction ks with
  | nil => exact fun h => .some h
  | cons c ks ih =>
    intro a x ha
    rw [directK, directK]
    split_ifs
    · exact ih ha
    · have h0 := sim_at h c
      have h1 : sim (2 * k + 3) (r.outerProduct ((at' s c).sub p)) (r'.outerProduct ((at' t c).sub p')) := by sim_tac
      have h2 := ih h1
      dsimp only
      have e1 : (fabs (r.outerProduct ((at' s c).sub p)) < EPSILON ∧ ((at' s c).sub p).r2 < r.r2) ↔
          (fabs (r'.outerProduct ((at' t c).sub p')) < EPSILON ∧ ((at' t c).sub p').r2 < r'.r2) := by
        refine and_congr (PyNum.sim_lt (sim_fabs h1) sim_EPSILON) (PyNum.sim_lt (sim_Vec_r2 (sim_Vec_sub h0 hp (by omega)) (by omega)) (sim_Vec_r2 hr (by omega)))
      have e2 : r.outerProduct ((at' s c).sub p) * a < num 0 ↔ r'.outerProduct ((at' t c).sub p') * x < num 0 :=
        PyNum.sim_lt (PyNum.sim_mul h1 ha (by omega)) PyNum.sim_num0
      simp only [e1, e2]
      split_ifs
      · exact .none
      · exact .none
      · exact h2

theorem sim_directStep {s : List (Vec (PyNum lit))} {t : List (Vec (FP double))} (h : sim k s t) (hk : 4 * k + 6 ≤ 53)
    (a : List (Vec (PyNum lit)) × List (Seg (PyNum lit))) (x : List (Vec (FP double)) × List (Seg (FP double))) (n : ℕ × ℕ) (ha : sim k a x) :
    sim k (directStep s a n) (directStep t x n) := by
  have h1 := sim_at h n.1
  have h2 := sim_at h n.2
  have h3 := sim_directK h hk n.1 n.2 (NumSim.mono (sim_Vec_sub h2 h1 (by omega)) (show max k k + 1 ≤ k + 1 by omega)) h1 (List.range s.length)
    (NumSim.mono (PyNum.sim_num0 (lit := lit)) (Nat.zero_le _))
  unfold directStep
  dsimp only
  rw [show s.length = t.length from h.length_eq] at h3 ⊢
  generalize directK s n.1 n.2 _ _ _ _ = c at h3 ⊢
  generalize directK t n.1 n.2 _ _ _ _ = d at h3 ⊢
  cases h3 with
  | none => exact ha
  | @some c d h3 =>
    have h4 : c < num 0 ↔ d < num 0 := PyNum.sim_lt h3 PyNum.sim_num0
    refine ⟨List.rel_append ha.1 (.cons h1 (.cons h2 .nil)), List.rel_append ha.2 (.cons ?_ .nil)⟩
    simp only [h4]
    split_ifs
    · exact NumSim.mono (sim_Seg_ofPoints h1 h2) (max_le le_rfl le_rfl)
    · exact NumSim.mono (sim_Seg_ofPoints h2 h1) (max_le le_rfl le_rfl)

theorem sim_list2set {α β : Type} [NumSim α β] {eq : α → α → Bool} {eq' : β → β → Bool} (he : ∀ a x b y, sim k a x → sim k b y → eq a b = eq' x y)
    {s : List α} {t : List β} (h : sim k s t) : sim k (list2set eq s) (list2set eq' t) := by
  refine sim_foldl (k := k) (l := k) ?_ h .nil
  intro a x b y ha hb
  have : (a.any fun s => eq s b) = (x.any fun s => eq' s y) := by
    clear h
    induction ha with
    | nil => rfl
    | cons h _ ih => rw [List.any_cons, List.any_cons, ih, he _ _ _ _ h hb]
  rw [this]
  split_ifs
  · exact ha
  · exact List.rel_append ha (.cons hb .nil)

theorem sim_direct (hs : SortRel k srt srt') {a : Obj (PyNum lit)} {x : Obj (FP double)} (h : sim k a x) (hk : 4 * k + 6 ≤ 53) :
    sim k (direct srt a) (direct srt' x) := by
  have h0 := sim_clearResults h
  have h1 : sim k a.clearResults.input x.clearResults.input := h0.1.1
  unfold direct
  dsimp only
  rw [show a.clearResults.input.length = x.clearResults.input.length from h1.length_eq]
  split_ifs with c1 c2 c3 c3
  · exact h0
  all_goals
    have h2 : sim k ((directPairs x.clearResults.input.length).foldl (directStep a.clearResults.input) ([], []))
        ((directPairs x.clearResults.input.length).foldl (directStep x.clearResults.input) ([], [])) :=
      sim_foldl_same (sim_directStep h1 hk) _ ⟨.nil, .nil⟩
    have h3 := h2.1.length_eq
  · exact ⟨⟨h1, sim_list2set (fun a x b y ha hb => sim_Vec_eq ha hb) (hs _ _ (sim_less (by omega)) _ _ h2.1)⟩, h2.2, rfl⟩
  · omega
  · omega
  · exact ⟨⟨h1, h2.1⟩, h2.2, rfl⟩

theorem sim_compute (hs : SortRel k srt srt') {a : Obj (PyNum lit)} {x : Obj (FP double)} (h : sim k a x) (hk : 4 * k + 6 ≤ 53) (mt : Method) :
    sim k (compute srt a mt) (compute srt' x mt) := by
  cases mt with
  | direct => exact .ok (sim_direct hs h hk)
  | wrapping => exact .ok (sim_wrapping h (by omega))
  | graham => exact sim_graham hs h (by omega)

end
end Hull

/-! ## soccer_math.py -/

theorem sim_SoccerMath_SERVER_EPS  : sim (0) ((SoccerMath.SERVER_EPS : PyNum lit)) ((SoccerMath.SERVER_EPS : FP double)) := by
  sim_def SoccerMath.SERVER_EPS
theorem sim_SoccerMath_kickRate {a0 : PyNum lit} {x0 : FP double} (h0 : sim k a0 x0) {a1 : PyNum lit} {x1 : FP double} (h1 : sim l a1 x1) {a2 : PyNum lit} {x2 : FP double} (h2 : sim j a2 x2) {a3 : PyNum lit} {x3 : FP double} (h3 : sim i a3 x3) {a4 : PyNum lit} {x4 : FP double} (h4 : sim g a4 x4) {a5 : PyNum lit} {x5 : FP double} (h5 : sim f a5 x5) (hk : (max k (max l (max j (max i (max g f))))) + 12 ≤ 53) : sim ((max k (max l (max j (max i (max g f))))) + 1) (SoccerMath.kickRate a0 a1 a2 a3 a4 a5) (SoccerMath.kickRate x0 x1 x2 x3 x4 x5) := by
  sim_def SoccerMath.kickRate
theorem sim_SoccerMath_dirRate {a0 : PyNum lit} {x0 : FP double} (h0 : sim k a0 x0) {a1 : PyNum lit} {x1 : FP double} (h1 : sim l a1 x1) {a2 : PyNum lit} {x2 : FP double} (h2 : sim j a2 x2) (hk : (max k (max l j)) + 13 ≤ 53) : sim ((max k (max l j)) + 2) (SoccerMath.dirRate a0 a1 a2) (SoccerMath.dirRate x0 x1 x2) := by
  sim_def SoccerMath.dirRate
theorem sim_SoccerMath_effectiveTurn {a0 : PyNum lit} {x0 : FP double} (h0 : sim k a0 x0) {a1 : PyNum lit} {x1 : FP double} (h1 : sim l a1 x1) {a2 : PyNum lit} {x2 : FP double} (h2 : sim j a2 x2) (hk : max k (l + j + 1) ≤ 53) : sim (0) (SoccerMath.effectiveTurn a0 a1 a2) (SoccerMath.effectiveTurn x0 x1 x2) := by
  sim_def SoccerMath.effectiveTurn
theorem sim_SoccerMath_finalSpeed {a0 : PyNum lit} {x0 : FP double} (h0 : sim k a0 x0) {a1 : PyNum lit} {x1 : FP double} (h1 : sim l a1 x1) {a2 : PyNum lit} {x2 : FP double} (h2 : sim j a2 x2) {a3 : PyNum lit} {x3 : FP double} (h3 : sim i a3 x3) (hk : max (k + l + j) (i + 1) ≤ 53) : sim (0) (SoccerMath.finalSpeed a0 a1 a2 a3) (SoccerMath.finalSpeed x0 x1 x2 x3) := by
  sim_def SoccerMath.finalSpeed
theorem sim_SoccerMath_canOverSpeedMax {a0 : PyNum lit} {x0 : FP double} (h0 : sim k a0 x0) {a1 : PyNum lit} {x1 : FP double} (h1 : sim l a1 x1) {a2 : PyNum lit} {x2 : FP double} (h2 : sim j a2 x2) {a3 : PyNum lit} {x3 : FP double} (h3 : sim i a3 x3) {a4 : PyNum lit} {x4 : FP double} (h4 : sim g a4 x4) (hk : max (k + l + j) (g + i + 1) ≤ 53) : sim (0) (SoccerMath.canOverSpeedMax a0 a1 a2 a3 a4) (SoccerMath.canOverSpeedMax x0 x1 x2 x3 x4) := by
  sim_def SoccerMath.canOverSpeedMax
theorem sim_SoccerMath_mathPow {a0 : PyNum lit} {x0 : FP double} (h0 : sim k a0 x0) (b1 : ℤ) (hk : k ≤ 53) : sim (0) (SoccerMath.mathPow a0 b1) (SoccerMath.mathPow x0 b1) := by
  sim_def SoccerMath.mathPow
theorem sim_SoccerMath_mathLog {a0 : PyNum lit} {x0 : FP double} (h0 : sim k a0 x0) (hk : k ≤ 53) : sim (0) (SoccerMath.mathLog a0) (SoccerMath.mathLog x0) := by
  sim_def SoccerMath.mathLog
theorem sim_SoccerMath_inertiaNStepTravel {a0 : Vec (PyNum lit)} {x0 : Vec (FP double)} (h0 : sim k a0 x0) (b1 : ℤ) {a2 : PyNum lit} {x2 : FP double} (h2 : sim l a2 x2) (hk : (max k l) + 1 ≤ 53) : sim (k) (SoccerMath.inertiaNStepTravel a0 b1 a2) (SoccerMath.inertiaNStepTravel x0 b1 x2) := by
  sim_def SoccerMath.inertiaNStepTravel
theorem sim_SoccerMath_inertiaNStepPoint {a0 : Vec (PyNum lit)} {x0 : Vec (FP double)} (h0 : sim k a0 x0) {a1 : Vec (PyNum lit)} {x1 : Vec (FP double)} (h1 : sim l a1 x1) (b2 : ℤ) {a3 : PyNum lit} {x3 : FP double} (h3 : sim j a3 x3) (hk : (max k (max l j)) + 1 ≤ 53) : sim ((max k (max l j)) + 1) (SoccerMath.inertiaNStepPoint a0 a1 b2 a3) (SoccerMath.inertiaNStepPoint x0 x1 b2 x3) := by
  sim_def SoccerMath.inertiaNStepPoint
theorem sim_SoccerMath_inertiaNStepDistance {a0 : PyNum lit} {x0 : FP double} (h0 : sim k a0 x0) (b1 : ℤ) {a2 : PyNum lit} {x2 : FP double} (h2 : sim l a2 x2) (hk : (max k l) + 1 ≤ 53) : sim (0) (SoccerMath.inertiaNStepDistance a0 b1 a2) (SoccerMath.inertiaNStepDistance x0 b1 x2) := by
  sim_def SoccerMath.inertiaNStepDistance
theorem sim_SoccerMath_inertiaFinalTravel {a0 : Vec (PyNum lit)} {x0 : Vec (FP double)} (h0 : sim k a0 x0) {a1 : PyNum lit} {x1 : FP double} (h1 : sim l a1 x1) (hk : (max k l) + 1 ≤ 53) : sim (0) (SoccerMath.inertiaFinalTravel a0 a1) (SoccerMath.inertiaFinalTravel x0 x1) := by
  sim_def SoccerMath.inertiaFinalTravel
theorem sim_SoccerMath_inertiaFinalPoint {a0 : Vec (PyNum lit)} {x0 : Vec (FP double)} (h0 : sim k a0 x0) {a1 : Vec (PyNum lit)} {x1 : Vec (FP double)} (h1 : sim l a1 x1) {a2 : PyNum lit} {x2 : FP double} (h2 : sim j a2 x2) (hk : (max k (max l j)) + 1 ≤ 53) : sim ((max k (max l j)) + 1) (SoccerMath.inertiaFinalPoint a0 a1 a2) (SoccerMath.inertiaFinalPoint x0 x1 x2) := by
  sim_def SoccerMath.inertiaFinalPoint
theorem sim_SoccerMath_inertiaFinalDistance {a0 : PyNum lit} {x0 : FP double} (h0 : sim k a0 x0) {a1 : PyNum lit} {x1 : FP double} (h1 : sim l a1 x1) (hk : (max k l) + 1 ≤ 53) : sim (0) (SoccerMath.inertiaFinalDistance a0 a1) (SoccerMath.inertiaFinalDistance x0 x1) := by
  sim_def SoccerMath.inertiaFinalDistance
theorem sim_SoccerMath_calcLengthGeomSeries {a0 : PyNum lit} {x0 : FP double} (h0 : sim k a0 x0) {a1 : PyNum lit} {x1 : FP double} (h1 : sim l a1 x1) {a2 : PyNum lit} {x2 : FP double} (h2 : sim j a2 x2) (hk : max k (l + j + 1) ≤ 53) : sim (0) (SoccerMath.calcLengthGeomSeries a0 a1 a2) (SoccerMath.calcLengthGeomSeries x0 x1 x2) := by
  sim_def SoccerMath.calcLengthGeomSeries
theorem sim_SoccerMath_calcFirstTermGeomSeries {a0 : PyNum lit} {x0 : FP double} (h0 : sim k a0 x0) {a1 : PyNum lit} {x1 : FP double} (h1 : sim l a1 x1) (b2 : ℤ) (hk : k + l + 1 ≤ 53) : sim (0) (SoccerMath.calcFirstTermGeomSeries a0 a1 b2) (SoccerMath.calcFirstTermGeomSeries x0 x1 b2) := by
  sim_def SoccerMath.calcFirstTermGeomSeries
theorem sim_SoccerMath_bound {a0 : PyNum lit} {x0 : FP double} (h0 : sim k a0 x0) {a1 : PyNum lit} {x1 : FP double} (h1 : sim l a1 x1) {a2 : PyNum lit} {x2 : FP double} (h2 : sim j a2 x2) : sim ((max k (max l j))) (SoccerMath.bound a0 a1 a2) (SoccerMath.bound x0 x1 x2) := by
  sim_def SoccerMath.bound
theorem sim_SoccerMath_minMax {a0 : PyNum lit} {x0 : FP double} (h0 : sim k a0 x0) {a1 : PyNum lit} {x1 : FP double} (h1 : sim l a1 x1) {a2 : PyNum lit} {x2 : FP double} (h2 : sim j a2 x2) : sim ((max k (max l j))) (SoccerMath.minMax a0 a1 a2) (SoccerMath.minMax x0 x1 x2) := by
  sim_def SoccerMath.minMax
theorem sim_SoccerMath_windEffect {a0 : PyNum lit} {x0 : FP double} (h0 : sim k a0 x0) {a1 : PyNum lit} {x1 : FP double} (h1 : sim l a1 x1) {a2 : PyNum lit} {x2 : FP double} (h2 : sim j a2 x2) {a3 : PyNum lit} {x3 : FP double} (h3 : sim i a3 x3) {a4 : PyNum lit} {x4 : FP double} (h4 : sim g a4 x4) {a5 : PyNum lit} {x5 : FP double} (h5 : sim f a5 x5) {a6 : Vec (PyNum lit)} {x6 : Vec (FP double)} (h6 : sim e a6 x6) (hk : max (k + f) (l + g) ≤ 53) : sim (0) (SoccerMath.windEffect a0 a1 a2 a3 a4 a5 a6) (SoccerMath.windEffect x0 x1 x2 x3 x4 x5 x6) := by
  sim_def SoccerMath.windEffect

end PyrusGeom
