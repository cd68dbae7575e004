import Verif.Model.ConvexHull
import Verif.Props.PolygonClip

/-! # Properties C78 – C82: `convex_hull.py` -/

namespace PyrusGeom
open Spec

/-! ## Specification -/

/-- Lexicographic order of points: first `x`, then `y`. -/
def Spec.LexLt (p q : Pt) : Prop := p.1 < q.1 ∨ (p.1 = q.1 ∧ p.2 < q.2)

/-- Every three points of the list (at different positions) span a doubled area of at least `e`. -/
def Spec.GenPos (l : List Pt) (e : ℝ) : Prop :=
  ∀ i j k (hi : i < l.length) (hj : j < l.length) (hk : k < l.length), i ≠ j → i ≠ k → j ≠ k →
    e ≤ |area2 l[i] l[j] l[k]|

/-- Weaker than `GenPos`: no point is repeated, every three points span a doubled area of zero or at least `e`, and a line
through three points of the list has points of the list strictly on both sides (so that no three points are on a line
that bounds the convex hull). -/
structure Spec.HullPos (l : List Pt) (e : ℝ) : Prop where
  inj : ∀ i j (hi : i < l.length) (hj : j < l.length), l[i] = l[j] → i = j
  gap : ∀ i j k (hi : i < l.length) (hj : j < l.length) (hk : k < l.length), area2 l[i] l[j] l[k] ≠ 0 →
    e ≤ |area2 l[i] l[j] l[k]|
  inner : ∀ i j k (hi : i < l.length) (hj : j < l.length) (hk : k < l.length), i ≠ j → i ≠ k → j ≠ k →
    area2 l[i] l[j] l[k] = 0 → ∃ a ∈ l, ∃ b ∈ l, area2 l[i] l[j] a < 0 ∧ 0 < area2 l[i] l[j] b

theorem Spec.GenPos.hullPos {l : List Pt} {e : ℝ} (he : 0 < e) (h3 : 3 ≤ l.length) (h : GenPos l e) : HullPos l e := by
  have h0 : ∀ i j k (hi : i < l.length) (hj : j < l.length) (hk : k < l.length), i ≠ j → i ≠ k → j ≠ k →
      area2 l[i] l[j] l[k] ≠ 0 := by
    intro i j k hi hj hk h1 h2 h4 hz
    have := h i j k hi hj hk h1 h2 h4
    rw [hz, abs_zero] at this
    linarith
  refine ⟨?_, ?_, ?_⟩
  · intro i j hi hj hij
    by_contra hne
    obtain ⟨k, hk, hki, hkj⟩ : ∃ k < l.length, i ≠ k ∧ j ≠ k := by
      by_cases h0 : i ≠ 0 ∧ j ≠ 0
      · exact ⟨0, by omega, h0⟩
      · by_cases h1 : i ≠ 1 ∧ j ≠ 1
        · exact ⟨1, by omega, h1⟩
        · exact ⟨2, by omega, by omega, by omega⟩
    refine h0 i j k hi hj hk hne hki hkj ?_
    rw [hij]; unfold area2; ring
  · intro i j k hi hj hk hz
    refine h i j k hi hj hk ?_ ?_ ?_
    · rintro rfl; exact hz (by unfold area2; ring)
    · rintro rfl; exact hz (by unfold area2; ring)
    · rintro rfl; exact hz (by unfold area2; ring)
  · intro i j k hi hj hk h1 h2 h4 hz
    exact absurd hz (h0 i j k hi hj hk h1 h2 h4)

namespace Spec.LexLt

theorem trans {p q r : Pt} (h1 : LexLt p q) (h2 : LexLt q r) : LexLt p r := by
  rcases h1 with h1 | ⟨h1, h1'⟩ <;> rcases h2 with h2 | ⟨h2, h2'⟩
  · exact Or.inl (h1.trans h2)
  · exact Or.inl (h2 ▸ h1)
  · exact Or.inl (h1 ▸ h2)
  · exact Or.inr ⟨h1.trans h2, h1'.trans h2'⟩

theorem total (p q : Pt) : LexLt p q ∨ p = q ∨ LexLt q p := by
  rcases lt_trichotomy p.1 q.1 with h | h | h
  · exact Or.inl (Or.inl h)
  · rcases lt_trichotomy p.2 q.2 with h' | h' | h'
    · exact Or.inl (Or.inr ⟨h, h'⟩)
    · exact Or.inr (Or.inl (Prod.ext h h'))
    · exact Or.inr (Or.inr (Or.inr ⟨h.symm, h'⟩))
  · exact Or.inr (Or.inr (Or.inl h))

theorem irrefl (p : Pt) : ¬ LexLt p p := by
  rintro (h | ⟨_, h⟩) <;> exact lt_irrefl _ h

end Spec.LexLt

/-! ## C81 -/

namespace Hull

theorem at'_pt (pts : List (Vec ℝ)) {i : ℕ} (hi : i < pts.length) : at' pts i = pts[i] := by
  simp [at', List.getD_eq_getElem?_getD, hi]

theorem minStep_real (pts : List (Vec ℝ)) (s : ℕ × Vec ℝ) (i : ℕ) [Decidable (LexLt (at' pts i).pt s.2.pt)] :
    minStep pts s i = if LexLt (at' pts i).pt s.2.pt then (i, at' pts i) else s := by
  unfold minStep
  have : (decide ((at' pts i).x < s.2.x) || (s.2.x == (at' pts i).x && decide ((at' pts i).y < s.2.y))) = true ↔
      LexLt (at' pts i).pt s.2.pt := by
    simp only [LexLt, Vec.pt_fst, Vec.pt_snd, Bool.or_eq_true, Bool.and_eq_true, decide_eq_true_eq, beq_iff_eq]
    constructor
    · rintro (h | ⟨h, h'⟩)
      · exact Or.inl h
      · exact Or.inr ⟨h.symm, h'⟩
    · rintro (h | ⟨h, h'⟩)
      · exact Or.inl h
      · exact Or.inr ⟨h.symm, h'⟩
  simp only [this]

theorem foldl_minStep (pts : List (Vec ℝ)) (n : ℕ) :
    ∃ k, (List.range (n + 1)).foldl (minStep pts) (0, at' pts 0) = (k, at' pts k) ∧ k ≤ n ∧
      (∀ j ≤ n, ¬ LexLt (at' pts j).pt (at' pts k).pt) ∧ (∀ j < k, LexLt (at' pts k).pt (at' pts j).pt) := by
  classical
  induction n with
  | zero =>
    refine ⟨0, ?_, le_rfl, ?_, fun j hj => absurd hj (Nat.not_lt_zero j)⟩
    · rw [List.range_one, List.foldl_cons, List.foldl_nil, minStep_real, if_neg (LexLt.irrefl _)]
    · intro j hj
      obtain rfl : j = 0 := by omega
      exact LexLt.irrefl _
  | succ n ih =>
    obtain ⟨k, h, hk, hmin, hfst⟩ := ih
    rw [List.range_succ, List.foldl_append, h, List.foldl_cons, List.foldl_nil, minStep_real]
    by_cases hl : LexLt (at' pts (n + 1)).pt (at' pts k).pt
    · refine ⟨n + 1, by rw [if_pos hl], le_rfl, ?_, ?_⟩
      · intro j hj hlt
        rcases Nat.lt_or_ge j (n + 1) with h' | h'
        · exact hmin j (by omega) (hlt.trans hl)
        · obtain rfl : j = n + 1 := by omega
          exact LexLt.irrefl _ hlt
      · intro j hj
        rcases LexLt.total (at' pts k).pt (at' pts j).pt with h' | h' | h'
        · exact hl.trans h'
        · exact h' ▸ hl
        · exact absurd h' (hmin j (by omega))
    · refine ⟨k, by rw [if_neg hl], by omega, ?_, hfst⟩
      intro j hj
      rcases Nat.lt_or_ge j (n + 1) with h' | h'
      · exact hmin j (by omega)
      · obtain rfl : j = n + 1 := by omega
        exact hl

/-- **C81** `-1` exactly for the empty list; otherwise the smallest index of a point that is least in (x, then y). -/
theorem C81_min_point_index (pts : List (Vec ℝ)) :
    (pts = [] ∧ minPointIndex pts = -1) ∨
      ∃ k, ∃ hk : k < pts.length, minPointIndex pts = k ∧
        (∀ j (hj : j < pts.length), ¬ LexLt pts[j].pt pts[k].pt) ∧
        (∀ j (hj : j < k), LexLt pts[k].pt (pts[j]'(hj.trans hk)).pt) := by
  by_cases h0 : pts.length = 0
  · left
    exact ⟨List.length_eq_zero_iff.mp h0, by rw [minPointIndex, if_pos h0]⟩
  · right
    obtain ⟨n, hn⟩ : ∃ n, pts.length = n + 1 := ⟨pts.length - 1, by omega⟩
    obtain ⟨k, h, hk, hmin, hfst⟩ := foldl_minStep pts n
    have hk' : k < pts.length := by omega
    refine ⟨k, hk', ?_, ?_, ?_⟩
    · rw [minPointIndex, if_neg h0, hn, h]
    · intro j hj
      have := hmin j (by omega)
      rwa [at'_pt pts hj, at'_pt pts hk'] at this
    · intro j hj
      have := hfst j hj
      rwa [at'_pt pts (hj.trans hk'), at'_pt pts hk'] at this

/-- Two least points: the first is reported. -/
example : minPointIndex ([⟨1, 0, true⟩, ⟨0, 2, true⟩, ⟨0, 1, true⟩, ⟨0, 1, true⟩] : List (Vec ℝ)) = 2 := by
  norm_num [minPointIndex, List.range, List.range.loop, minStep, at']

end Hull

/-! ## C82 -/

namespace Hull
variable {α : Type} {eq : α → α → Bool}

/-- The result of `list2set` on the items seen so far. -/
theorem list2set_append (l : List α) (x : α) : list2set eq (l ++ [x]) =
    if (list2set eq l).any (fun s => eq s x) then list2set eq l else list2set eq l ++ [x] := by
  simp [list2set, List.foldl_append]

/-- **C82** For any equivalence relation `==`: the result is a sub-list of the input in the input's order, no two of its
items are equal, and every input item is equal to an item of the result. -/
theorem C82_same_elements (hr : ∀ a, eq a a = true) (hs : ∀ a b, eq a b = true → eq b a = true) (l : List α) :
    (list2set eq l).Sublist l ∧ (list2set eq l).Pairwise (fun a b => eq a b = false) ∧
      ∀ a ∈ l, ∃ b ∈ list2set eq l, eq b a = true := by
  induction l using List.reverseRecOn with
  | nil => simp [list2set]
  | append_singleton l x ih =>
    obtain ⟨h1, h2, h3⟩ := ih
    rw [list2set_append]
    by_cases hx : (list2set eq l).any (fun s => eq s x) = true
    · rw [if_pos hx]
      refine ⟨h1.trans (List.sublist_append_left l [x]), h2, ?_⟩
      intro a ha
      rcases List.mem_append.mp ha with ha | ha
      · exact h3 a ha
      · obtain rfl : a = x := by simpa using ha
        simpa using hx
    · rw [if_neg hx]
      refine ⟨h1.append_right [x], ?_, ?_⟩
      · rw [List.pairwise_append]
        refine ⟨h2, List.pairwise_singleton _ _, ?_⟩
        intro a ha b hb
        obtain rfl : b = x := by simpa using hb
        cases h : eq a b with
        | false => rfl
        | true => exact absurd (List.any_eq_true.mpr ⟨a, ha, h⟩) hx
      · intro a ha
        rcases List.mem_append.mp ha with ha | ha
        · obtain ⟨b, hb, h⟩ := h3 a ha
          exact ⟨b, List.mem_append_left _ hb, h⟩
        · obtain rfl : a = x := by simpa using ha
          exact ⟨a, by simp, hr a⟩

/-- **C82** An item of the input is kept exactly if no earlier item is equal to it, and the kept items are in the order of
their positions: the result is the input filtered by "no equal item at a smaller index". -/
theorem C82_first_occurrences (hr : ∀ a, eq a a = true) (ht : ∀ a b c, eq a b = true → eq b c = true → eq a c = true)
    (l : List α) :
    list2set eq l = (l.zipIdx.filter (fun p => !(l.take p.2).any (fun b => eq b p.1))).map Prod.fst := by
  have key : ∀ l : List α, ∀ x, (list2set eq l).any (fun s => eq s x) = l.any (fun s => eq s x) := by
    intro l
    induction l using List.reverseRecOn with
    | nil => intro x; rfl
    | append_singleton l y ih =>
      intro x
      rw [list2set_append]
      by_cases hy : (list2set eq l).any (fun s => eq s y) = true
      · rw [if_pos hy, ih, List.any_append]
        cases hyx : eq y x with
        | false => simp [hyx]
        | true =>
          rw [ih] at hy
          obtain ⟨s, hs, h⟩ := List.any_eq_true.mp hy
          have : l.any (fun s => eq s x) = true := List.any_eq_true.mpr ⟨s, hs, ht _ _ _ h hyx⟩
          simp [this]
      · rw [if_neg hy, List.any_append, ih, List.any_append]
  induction l using List.reverseRecOn with
  | nil => rfl
  | append_singleton l x ih =>
    rw [list2set_append, key, List.zipIdx_append, List.filter_append, List.map_append]
    have e1 : (l.zipIdx.filter (fun p => !((l ++ [x]).take p.2).any (fun b => eq b p.1))) =
        l.zipIdx.filter (fun p => !(l.take p.2).any (fun b => eq b p.1)) := by
      apply List.filter_congr
      intro p hp
      have : p.2 < l.length := by
        have := List.snd_lt_of_mem_zipIdx hp
        omega
      rw [List.take_append_of_le_length this.le]
    rw [e1, ← ih]
    by_cases hx : l.any (fun s => eq s x) = true
    · rw [if_pos hx]
      simp only [List.any_eq_true] at hx
      simp [List.zipIdx]
      exact hx
    · rw [if_neg hx]
      have e2 : l.any (fun s => eq s x) = false := by simpa using hx
      have e3 : (l ++ [x]).take l.length = l := by simp
      rw [show [x].zipIdx (0 + l.length) = [(x, l.length)] by simp [List.zipIdx]]
      rw [List.filter_cons_of_pos (by rw [e3, e2]; rfl)]
      rfl

/-- **C82** A list without equal items is returned as it is, so `list2set` is idempotent. -/
theorem C82_idempotent (hr : ∀ a, eq a a = true) (hs : ∀ a b, eq a b = true → eq b a = true) (l : List α) :
    list2set eq (list2set eq l) = list2set eq l := by
  have key : ∀ l : List α, l.Pairwise (fun a b => eq a b = false) → list2set eq l = l := by
    intro l
    induction l using List.reverseRecOn with
    | nil => intro _; rfl
    | append_singleton l x ih =>
      intro h
      rw [List.pairwise_append] at h
      rw [list2set_append, ih h.1, if_neg]
      intro hx
      obtain ⟨s, hs, h'⟩ := List.any_eq_true.mp hx
      rw [h.2.2 s hs x (by simp)] at h'
      exact Bool.false_ne_true h'
  exact key _ (C82_same_elements hr hs l).2.1

/-- **C82** for the `==` of `Vector2D`: same set of points, no point twice. -/
theorem C82_vectors (l : List (Vec ℝ)) :
    (∀ z : Pt, z ∈ (list2set Vec.eq l).map Vec.pt ↔ z ∈ l.map Vec.pt) ∧ ((list2set Vec.eq l).map Vec.pt).Nodup := by
  have he : ∀ a b : Vec ℝ, Vec.eq a b = true ↔ a.pt = b.pt := by
    intro a b
    rw [Vec.pt_eq_iff]
    simp [Vec.eq]
  obtain ⟨h1, h2, h3⟩ := C82_same_elements (eq := Vec.eq) (fun a => (he a a).mpr rfl)
    (fun a b h => (he b a).mpr ((he a b).mp h).symm) l
  constructor
  · intro z
    constructor
    · intro hz
      obtain ⟨a, ha, rfl⟩ := List.mem_map.mp hz
      exact List.mem_map_of_mem (h1.subset ha)
    · intro hz
      obtain ⟨a, ha, rfl⟩ := List.mem_map.mp hz
      obtain ⟨b, hb, hba⟩ := h3 a ha
      exact List.mem_map.mpr ⟨b, hb, (he b a).mp hba⟩
  · unfold List.Nodup
    rw [List.pairwise_map]
    refine h2.imp ?_
    intro a b hab h
    rw [(he a b).mpr h] at hab
    exact Bool.false_ne_true hab.symm

example : list2set (fun a b : ℕ => a == b) [3, 1, 3, 2, 1] = [3, 1, 2] := rfl

end Hull

/-! ## C78 -/

namespace Hull

/-- The point with index `i`. -/
noncomputable def P (pts : List (Vec ℝ)) (i : ℕ) : Pt := (at' pts i).pt

theorem _root_.PyrusGeom.Spec.GenPos.hull {pts : List (Vec ℝ)} (hg : GenPos (pts.map Vec.pt) EPSILON)
    (h3 : 3 ≤ pts.length) : HullPos (pts.map Vec.pt) EPSILON := hg.hullPos EPSILON_pos (by simpa using h3)

theorem gap_P {pts : List (Vec ℝ)} (hg : HullPos (pts.map Vec.pt) EPSILON) {i j k : ℕ} (hi : i < pts.length)
    (hj : j < pts.length) (hk : k < pts.length) (h0 : area2 (P pts i) (P pts j) (P pts k) ≠ 0) :
    (EPSILON : ℝ) ≤ |area2 (P pts i) (P pts j) (P pts k)| := by
  have := hg.gap i j k (by simpa using hi) (by simpa using hj) (by simpa using hk)
  simp only [P, at'_pt, hi, hj, hk] at h0 ⊢
  simpa [h0] using this

theorem inner_P {pts : List (Vec ℝ)} (hg : HullPos (pts.map Vec.pt) EPSILON) {i j k : ℕ} (hi : i < pts.length)
    (hj : j < pts.length) (hk : k < pts.length) (hij : i ≠ j) (hik : i ≠ k) (hjk : j ≠ k)
    (h0 : area2 (P pts i) (P pts j) (P pts k) = 0) :
    (∃ a < pts.length, area2 (P pts i) (P pts j) (P pts a) < 0) ∧
      ∃ b < pts.length, 0 < area2 (P pts i) (P pts j) (P pts b) := by
  have := hg.inner i j k (by simpa using hi) (by simpa using hj) (by simpa using hk) hij hik hjk
    (by simpa [P, at'_pt, hi, hj, hk] using h0)
  obtain ⟨a, ha, b, hb, h1, h2⟩ := this
  obtain ⟨a', ha', rfl⟩ := List.mem_iff_getElem.mp ha
  obtain ⟨b', hb', rfl⟩ := List.mem_iff_getElem.mp hb
  rw [List.length_map] at ha' hb'
  refine ⟨⟨a', ha', ?_⟩, ⟨b', hb', ?_⟩⟩
  · simpa [P, at'_pt, hi, hj, ha'] using h1
  · simpa [P, at'_pt, hi, hj, hb'] using h2

theorem P_inj {pts : List (Vec ℝ)} (hg : HullPos (pts.map Vec.pt) EPSILON) {i j : ℕ}
    (hi : i < pts.length) (hj : j < pts.length) (h : P pts i = P pts j) : i = j :=
  hg.inj i j (by simpa using hi) (by simpa using hj) (by simpa [P, at'_pt, hi, hj] using h)

/-- Index `i` may be chosen in a round at `cur` with the used indices `used`. -/
def Cand (n cur : ℕ) (used : List ℕ) (i : ℕ) : Prop := i < n ∧ i ≠ cur ∧ i ∉ used

/-- Seen from `cur`, `a` comes before `b` in counter-clockwise order. -/
def Before (pts : List (Vec ℝ)) (cur a b : ℕ) : Prop := 0 < area2 (P pts cur) (P pts a) (P pts b)

/-- Seen from `cur`, `a` does not come after `b`. -/
def WBefore (pts : List (Vec ℝ)) (cur a b : ℕ) : Prop := 0 ≤ area2 (P pts cur) (P pts a) (P pts b)

/-- Seen from `cur`, the counter-clockwise order of the other points is transitive. -/
def TransAt (pts : List (Vec ℝ)) (cur : ℕ) : Prop :=
  ∀ a b c, a < pts.length → b < pts.length → c < pts.length → a ≠ cur → b ≠ cur → c ≠ cur →
    WBefore pts cur a b → WBefore pts cur b c → WBefore pts cur a c

theorem candStep_real {pts : List (Vec ℝ)} (hg : HullPos (pts.map Vec.pt) EPSILON) {cur : ℕ} (hcur : cur < pts.length)
    {used : List ℕ} {cand i : ℕ} (hc : Cand pts.length cur used cand) (hi : i < pts.length) :
    (Cand pts.length cur used i ∧ WBefore pts cur i cand ∧ candStep pts cur (at' pts cur) used cand i = i) ∨
    (Cand pts.length cur used i ∧ WBefore pts cur cand i ∧ candStep pts cur (at' pts cur) used cand i = cand) ∨
    (¬ Cand pts.length cur used i ∧ candStep pts cur (at' pts cur) used cand i = cand) := by
  unfold candStep
  by_cases hi' : (i == cur || used.contains i) = true
  · right; right
    rw [if_pos hi']
    refine ⟨?_, rfl⟩
    rintro ⟨_, h1, h2⟩
    simp [h1, h2] at hi'
  · have hcand : Cand pts.length cur used i := by
      simp only [Bool.or_eq_true, beq_iff_eq, List.contains_iff_mem, not_or] at hi'
      exact ⟨hi, hi'.1, hi'.2⟩
    rw [if_neg hi']
    simp only [Tri.dsa_real]
    have hlarge := gap_P hg hcur hc.1 hi
    have hE := EPSILON_pos
    have hflip : area2 (at' pts cur).pt (at' pts i).pt (at' pts cand).pt =
            -area2 (at' pts cur).pt (at' pts cand).pt (at' pts i).pt := by unfold area2; ring
    unfold P at hlarge
    rcases lt_trichotomy (area2 (at' pts cur).pt (at' pts cand).pt (at' pts i).pt) 0 with h | h | h
    · left
      refine ⟨hcand, ?_, ?_⟩
      · unfold WBefore P
        rw [hflip]; linarith
      · rw [if_pos (by simpa using h)]
    · rw [if_neg (by simpa using h.ge)]
      by_cases hd : (decide (area2 (at' pts cur).pt (at' pts cand).pt (at' pts i).pt < EPSILON) &&
          decide ((at' pts cur).dist2 (at' pts i) < (at' pts cur).dist2 (at' pts cand))) = true
      · left
        refine ⟨hcand, ?_, by rw [if_pos hd]⟩
        unfold WBefore P
        rw [hflip]; linarith
      · right; left
        exact ⟨hcand, h.ge, by rw [if_neg hd]⟩
    · right; left
      have hlarge := hlarge h.ne'
      rw [abs_of_pos h] at hlarge
      refine ⟨hcand, h.le, ?_⟩
      rw [if_neg (by simpa using h.le), if_neg]
      simp only [Bool.and_eq_true, decide_eq_true_eq, not_and]
      intro h'
      exact absurd h' (not_lt.mpr hlarge)

theorem foldl_candStep {pts : List (Vec ℝ)} (hg : HullPos (pts.map Vec.pt) EPSILON) {cur : ℕ} (hcur : cur < pts.length)
    (ht : TransAt pts cur) {used : List ℕ} (L : List ℕ) (hL : ∀ i ∈ L, i < pts.length) (S : Set ℕ) (s : ℕ)
    (hs : Cand pts.length cur used s) (hsS : s ∈ S) (hLS : ∀ i ∈ L, i ∉ S) (hLn : L.Nodup)
    (hmin : ∀ c ∈ S, Cand pts.length cur used c → c ≠ s → WBefore pts cur s c) :
    Cand pts.length cur used (L.foldl (candStep pts cur (at' pts cur) used) s) ∧
    ∀ c ∈ S ∪ {i | i ∈ L}, Cand pts.length cur used c → c ≠ L.foldl (candStep pts cur (at' pts cur) used) s →
      WBefore pts cur (L.foldl (candStep pts cur (at' pts cur) used) s) c := by
  induction L generalizing S s with
  | nil =>
    refine ⟨hs, ?_⟩
    rintro c (hc | hc) h1 h2
    · exact hmin c hc h1 h2
    · exact absurd hc (by simp)
  | cons i L ih =>
    have hiS : i ∉ S := hLS i (by simp)
    have hne : i ≠ s := fun h => hiS (h ▸ hsS)
    have hLn' := List.nodup_cons.mp hLn
    rw [List.foldl_cons]
    have hset : S ∪ {j | j ∈ i :: L} = (S ∪ {i}) ∪ {j | j ∈ L} := by
      ext j; simp only [Set.mem_union, Set.mem_ofPred_eq, List.mem_cons, Set.mem_singleton_iff, or_assoc]
    rw [hset]
    have hdis : ∀ j ∈ L, j ∉ S ∪ {i} := by
      rintro j hj (h | h)
      · exact hLS j (List.mem_cons_of_mem _ hj) h
      · rw [Set.mem_singleton_iff] at h
        exact hLn'.1 (h ▸ hj)
    have hL' : ∀ j ∈ L, j < pts.length := fun j hj => hL j (List.mem_cons_of_mem _ hj)
    have hil := hL i (by simp)
    rcases candStep_real hg hcur hs hil with ⟨hc, hb, h⟩ | ⟨hc, hb, h⟩ | ⟨hc, h⟩
    · rw [h]
      refine ih hL' (S ∪ {i}) i hc (by simp) hdis hLn'.2 ?_
      rintro c (hcS | hcS) h1 h2
      · by_cases hcs : c = s
        · rw [hcs]; exact hb
        · exact ht i s c hil hs.1 h1.1 hc.2.1 hs.2.1 h1.2.1 hb (hmin c hcS h1 hcs)
      · exact absurd hcS h2
    · rw [h]
      refine ih hL' (S ∪ {i}) s hs (Or.inl hsS) hdis hLn'.2 ?_
      rintro c (hcS | hcS) h1 h2
      · exact hmin c hcS h1 h2
      · rw [Set.mem_singleton_iff] at hcS
        rw [hcS]; exact hb
    · rw [h]
      refine ih hL' (S ∪ {i}) s hs (Or.inl hsS) hdis hLn'.2 ?_
      rintro c (hcS | hcS) h1 h2
      · exact hmin c hcS h1 h2
      · rw [Set.mem_singleton_iff] at hcS
        exact absurd (hcS ▸ h1) hc

/-- The first candidate is the smallest one. -/
theorem firstCandidate_spec {n cur : ℕ} {used : List ℕ} (h : ∃ i, Cand n cur used i) :
    Cand n cur used (firstCandidate n cur used) ∧ ∀ i, Cand n cur used i → firstCandidate n cur used ≤ i := by
  have hc : ∀ i, i < n → ((!(i == cur || used.contains i)) = true ↔ Cand n cur used i) := by
    intro i hi
    simp [Cand, hi, List.contains_iff_mem]
  unfold firstCandidate
  cases hf : (List.range n).find? (fun i => !(i == cur || used.contains i)) with
  | none =>
    obtain ⟨i, hi⟩ := h
    rw [List.find?_eq_none] at hf
    exact absurd ((hc i hi.1).mpr hi) (by simpa using hf i (List.mem_range.mpr hi.1))
  | some j =>
    rw [List.find?_range_eq_some] at hf
    rw [Option.getD_some]
    obtain ⟨h1, h2, h3⟩ := hf
    have hjn : j < n := by simpa using h2
    refine ⟨(hc j hjn).mp h1, ?_⟩
    intro i hi
    by_contra hlt
    have := h3 i (by omega)
    rw [(hc i hi.1).mpr hi] at this
    simp at this

/-- One round chooses the candidate that comes before all other candidates. -/
theorem nextIndex_spec {pts : List (Vec ℝ)} (hg : HullPos (pts.map Vec.pt) EPSILON) {cur : ℕ} (hcur : cur < pts.length)
    (ht : TransAt pts cur) {used : List ℕ} (h : ∃ i, Cand pts.length cur used i) :
    Cand pts.length cur used (nextIndex pts cur used) ∧
    ∀ c, Cand pts.length cur used c → c ≠ nextIndex pts cur used → WBefore pts cur (nextIndex pts cur used) c := by
  obtain ⟨h1, h2⟩ := firstCandidate_spec h
  unfold nextIndex
  set f := firstCandidate pts.length cur used with hf
  have := foldl_candStep hg hcur ht (used := used) (List.range' (f + 1) (pts.length - (f + 1)))
    (by intro i hi; rw [List.mem_range'_1] at hi; omega) {i | i ≤ f} f h1 (by simp)
    (by intro i hi; rw [List.mem_range'_1] at hi; simp; omega) (List.nodup_range')
    (by
      intro c hc h3 h4
      have := h2 c h3
      simp at hc
      exact absurd (le_antisymm hc this) h4)
  refine ⟨this.1, fun c hc => this.2 c ?_ hc⟩
  rcases Nat.lt_or_ge f c with hlt | hge
  · right
    have := hc.1
    simp only [Set.mem_ofPred_eq, List.mem_range'_1]
    omega
  · left; simpa using hge

/-- The directed edge from `a` to `b` has all other points strictly on its left. -/
def Sup (pts : List (Vec ℝ)) (a b : ℕ) : Prop :=
  a ≠ b ∧ a < pts.length ∧ b < pts.length ∧ ∀ t < pts.length, t ≠ a → t ≠ b → Before pts a b t

theorem area2_rot (a b c : Pt) : area2 a b c = area2 b c a := by unfold area2; ring
theorem area2_flip (a b c : Pt) : area2 a c b = -area2 a b c := by unfold area2; ring

theorem plucker (o a b c w : Pt) :
    area2 o a c * (w.1 * (b.2 - o.2) - w.2 * (b.1 - o.1)) =
      area2 o a b * (w.1 * (c.2 - o.2) - w.2 * (c.1 - o.1)) +
      area2 o b c * (w.1 * (a.2 - o.2) - w.2 * (a.1 - o.1)) := by unfold area2; ring

theorem transAt_of {pts : List (Vec ℝ)} {cur : ℕ}
    (w : Pt) (hw : ∀ t < pts.length, t ≠ cur →
      0 ≤ w.1 * ((P pts t).2 - (P pts cur).2) - w.2 * ((P pts t).1 - (P pts cur).1))
    (hz : ∀ t < pts.length, t ≠ cur → w.1 * ((P pts t).2 - (P pts cur).2) - w.2 * ((P pts t).1 - (P pts cur).1) = 0 →
      ∀ c < pts.length, c ≠ cur → WBefore pts cur t c → c = t) : TransAt pts cur := by
  intro a b c ha hb hc hac hbc hcc hab hbc'
  have h := plucker (P pts cur) (P pts a) (P pts b) (P pts c) w
  have wa := hw a ha hac
  have wb := hw b hb hbc
  have wc := hw c hc hcc
  rcases wb.eq_or_lt with h0 | h0
  · rw [hz b hb hbc h0.symm c hc hcc hbc']; exact hab
  · unfold WBefore at hab hbc' ⊢
    by_contra hneg
    push Not at hneg
    have h1 := mul_neg_of_neg_of_pos hneg h0
    have h2 := mul_nonneg hab wc
    have h3 := mul_nonneg hbc' wa
    linarith

/-- Seen from the lexicographically least point the order is transitive. -/
theorem transAt_min {pts : List (Vec ℝ)} (hg : HullPos (pts.map Vec.pt) EPSILON) {m : ℕ} (hm : m < pts.length)
    (hmin : ∀ j < pts.length, ¬ LexLt (P pts j) (P pts m)) : TransAt pts m := by
  have hx : ∀ t < pts.length, (P pts m).1 ≤ (P pts t).1 := by
    intro t ht
    by_contra h
    exact hmin t ht (Or.inl (not_le.mp h))
  refine transAt_of (0, -1) ?_ ?_
  · intro t ht _
    have := hx t ht
    simp only; linarith
  · intro t ht htm h0 c hc hcm hb
    have e : (P pts t).1 = (P pts m).1 := by simp only at h0; linarith
    have hy : (P pts m).2 ≤ (P pts t).2 := by
      by_contra h
      exact hmin t ht (Or.inr ⟨e, not_le.mp h⟩)
    have hle : ∀ k < pts.length, area2 (P pts m) (P pts t) (P pts k) ≤ 0 := by
      intro k hk
      have := hx k hk
      unfold area2
      rw [e]
      nlinarith [mul_nonneg (sub_nonneg.mpr hy) (sub_nonneg.mpr this)]
    by_contra hct
    have h00 : area2 (P pts m) (P pts t) (P pts c) = 0 := le_antisymm (hle c hc) hb
    obtain ⟨-, b, hb, hpos⟩ := inner_P hg hm ht hc htm.symm hcm.symm (Ne.symm hct) h00
    exact absurd hpos (not_lt.mpr (hle b hb))

/-- Seen from the end of an edge with all points on its left the order is transitive. -/
theorem transAt_sup {pts : List (Vec ℝ)} {q cur : ℕ} (h : Sup pts q cur) :
    TransAt pts cur := by
  obtain ⟨hne, hq, hcur, hs⟩ := h
  have key : ∀ t, ((P pts cur).1 - (P pts q).1) * ((P pts t).2 - (P pts cur).2) -
      ((P pts cur).2 - (P pts q).2) * ((P pts t).1 - (P pts cur).1) = area2 (P pts q) (P pts cur) (P pts t) := by
    intro t; unfold area2; ring
  refine transAt_of ((P pts cur).1 - (P pts q).1, (P pts cur).2 - (P pts q).2) ?_ ?_
  · intro t ht htc
    simp only
    rw [key]
    by_cases htq : t = q
    · rw [htq]; apply le_of_eq; unfold area2; ring
    · exact (hs t ht htq htc).le
  · intro t ht htc h0 c hc hcc hb
    simp only at h0
    rw [key] at h0
    have htq : t = q := by
      by_contra htq
      have := hs t ht htq htc
      unfold Before at this
      rw [h0] at this
      exact lt_irrefl _ this
    subst htq
    unfold WBefore at hb
    rw [show area2 (P pts cur) (P pts t) (P pts c) = -area2 (P pts t) (P pts cur) (P pts c) by unfold area2; ring] at hb
    by_contra hct
    have := hs c hc hct hcc
    unfold Before at this
    linarith

/-- The loop invariant of gift wrapping: `m :: used` is a path of edges with all points on their left. -/
structure Inv (pts : List (Vec ℝ)) (m : ℕ) (used : List ℕ) : Prop where
  nodup : (m :: used).Nodup
  lt : ∀ i ∈ m :: used, i < pts.length
  sup : ∀ e ∈ chainPairs (m :: used), Sup pts e.1 e.2

theorem mem_chainPairs_last {α : Type} (l : List α) (a b : α) : (a, b) ∈ chainPairs (l ++ [a, b]) := by
  rw [chainPairs_append]
  simp

theorem exists_pred {α : Type} {l : List α} {x a : α} (h : x ∈ l) : ∃ y, (y, x) ∈ chainPairs (a :: l) := by
  obtain ⟨s, t, rfl⟩ := List.append_of_mem h
  rcases List.eq_nil_or_concat s with rfl | ⟨s', y, rfl⟩
  · exact ⟨a, by simp⟩
  · refine ⟨y, ?_⟩
    have := chainPairs_append (a :: s') y (x :: t)
    rw [show a :: (s'.concat y ++ x :: t) = (a :: s') ++ y :: (x :: t) by simp, this]
    simp

theorem chainPairs_mem {α : Type} {l : List α} {e : α × α} (h : e ∈ chainPairs l) : e.1 ∈ l ∧ e.2 ∈ l := by
  unfold chainPairs at h
  obtain ⟨h1, h2⟩ := List.of_mem_zip (a := e.1) (b := e.2) h
  exact ⟨h1, List.mem_of_mem_tail h2⟩

theorem fst_mem_of_chain {α : Type} {l : List α} {z : α} {e : α × α} (h : e ∈ chainPairs (l ++ [z])) : e.1 ∈ l := by
  unfold chainPairs at h
  obtain ⟨i, hi, rfl⟩ := List.mem_iff_getElem.mp h
  have hi' : i < l.length := by
    simp only [List.length_zip, List.length_tail, List.length_append, List.length_singleton] at hi
    omega
  rw [List.getElem_zip]
  simp only [List.getElem_append_left hi']
  exact List.getElem_mem hi'

/-- In every round the chosen index is new and the new edge has all points on its left. -/
theorem round_spec {pts : List (Vec ℝ)} (hg : HullPos (pts.map Vec.pt) EPSILON) (h3 : 3 ≤ pts.length) {m : ℕ}
    (hmin : ∀ j < pts.length, ¬ LexLt (P pts j) (P pts m)) {used : List ℕ} (hI : Inv pts m used) {cur : ℕ}
    (hlast : (m :: used).getLast (by simp) = cur) :
    Sup pts cur (nextIndex pts cur used) ∧ nextIndex pts cur used ∉ used := by
  have hcm : cur ∈ m :: used := hlast ▸ List.getLast_mem _
  have hcur := hI.lt cur hcm
  have ht : TransAt pts cur := by
    rcases List.eq_nil_or_concat used with rfl | ⟨u, z, rfl⟩
    · have : m = cur := by simpa using hlast
      subst this
      exact transAt_min hg hcur hmin
    · have hz : z = cur := by simpa using hlast
      subst hz
      obtain ⟨y, hy⟩ := exists_pred (l := u.concat z) (x := z) (a := m) (by simp)
      exact transAt_sup (hI.sup _ hy)
  have hex : ∃ i, Cand pts.length cur [] i := by
    rcases Nat.eq_zero_or_pos cur with h | h
    · exact ⟨1, by omega, by omega, by simp⟩
    · exact ⟨0, by omega, by omega, by simp⟩
  obtain ⟨hT, hTmin⟩ := nextIndex_spec hg hcur ht hex
  set T := nextIndex pts cur [] with hTdef
  have hsup : Sup pts cur T := by
    refine ⟨hT.2.1.symm, hcur, hT.1, fun t ht h1 h2 => ?_⟩
    refine lt_of_le_of_ne (hTmin t ⟨ht, h1, by simp⟩ h2) fun h0 => ?_
    obtain ⟨⟨a, ha, hneg⟩, -⟩ := inner_P hg hcur hT.1 ht hT.2.1.symm h1.symm h2.symm h0.symm
    have hac : a ≠ cur := by
      rintro rfl
      exact absurd hneg (by unfold area2; ring_nf; exact lt_irrefl _)
    have haT : a ≠ T := by
      rintro rfl
      exact absurd hneg (by unfold area2; ring_nf; exact lt_irrefl _)
    exact absurd hneg (not_lt.mpr (hTmin a ⟨ha, hac, by simp⟩ haT))
  have hTu : T ∉ used := by
    intro hTu
    obtain ⟨y, hy⟩ := exists_pred (a := m) hTu
    have hsy := hI.sup _ hy
    have hyc : y ≠ cur := by
      -- `cur` is last, so it has no successor
      intro h
      rw [h] at hy
      have hnd := hI.nodup
      have hl := List.dropLast_append_getLast (l := m :: used) (by simp)
      rw [hlast] at hl
      have h1 : cur ∉ (m :: used).dropLast := by
        rw [← hl, List.nodup_append] at hnd
        intro hc
        exact hnd.2.2 cur hc cur (by simp) rfl
      rw [← hl] at hy
      exact h1 (fst_mem_of_chain hy)
    have h1 := hsy.2.2.2 cur hcur hyc.symm hT.2.1.symm
    have h2 := hsup.2.2.2 y hsy.2.1 hyc hsy.1
    unfold Before at h1 h2
    simp only at h1 h2
    have : area2 (P pts y) (P pts T) (P pts cur) = -area2 (P pts cur) (P pts T) (P pts y) := by unfold area2; ring
    linarith
  have hTc : Cand pts.length cur used T := ⟨hT.1, hT.2.1, hTu⟩
  obtain ⟨hc, hcmin⟩ := nextIndex_spec hg hcur ht ⟨T, hTc⟩
  have : nextIndex pts cur used = T := by
    by_contra hne
    have h1 := hcmin T hTc (fun h => hne h.symm)
    have h2 := hsup.2.2.2 _ hc.1 hc.2.1 hne
    unfold WBefore at h1
    unfold Before at h2
    rw [area2_flip] at h2
    linarith
  rw [this]
  exact ⟨hsup, hTu⟩

theorem chain_snoc {α : Type} (a : α) (l : List α) (z : α) :
    chainPairs (a :: (l ++ [z])) = chainPairs (a :: l) ++ [((a :: l).getLast (by simp), z)] := by
  have hl := List.dropLast_append_getLast (l := a :: l) (by simp)
  have : a :: (l ++ [z]) = (a :: l).dropLast ++ (a :: l).getLast (by simp) :: [z] := by
    rw [← List.cons_append]
    conv_lhs => rw [← hl]
    simp
  rw [this, chainPairs_append, hl]
  rfl

theorem Inv.length_lt {pts : List (Vec ℝ)} {m : ℕ} {used : List ℕ} (hI : Inv pts m used) : used.length < pts.length := by
  have h1 : (m :: used).toFinset ⊆ Finset.range pts.length := by
    intro i hi
    exact Finset.mem_range.mpr (hI.lt i (List.mem_toFinset.mp hi))
  have h2 := Finset.card_le_card h1
  rw [List.toFinset_card_of_nodup hI.nodup, Finset.card_range, List.length_cons] at h2
  omega

/-- The whole loop: it comes back to the start, and every edge of the closed path has all points on its left. -/
theorem wrapLoop_spec {pts : List (Vec ℝ)} (hg : HullPos (pts.map Vec.pt) EPSILON) (h3 : 3 ≤ pts.length) {m : ℕ}
    (hmin : ∀ j < pts.length, ¬ LexLt (P pts j) (P pts m)) (fuel : ℕ) (used : List ℕ) (hI : Inv pts m used) (cur : ℕ)
    (hlast : (m :: used).getLast (by simp) = cur) (hf : pts.length < fuel + used.length + 1) :
    ∃ u, Inv pts m u ∧ (∀ e ∈ cyclicPairs (m :: u), Sup pts e.1 e.2) ∧
      wrapLoop pts m fuel cur used ((m :: used).map (at' pts)) = (m :: u).map (at' pts) ++ [at' pts m] := by
  induction fuel generalizing used cur with
  | zero =>
    have := hI.length_lt
    omega
  | succ fuel ih =>
    obtain ⟨hs, hn⟩ := round_spec hg h3 hmin hI hlast
    unfold wrapLoop
    simp only
    set c := nextIndex pts cur used with hc
    have hch : ∀ e ∈ chainPairs (m :: (used ++ [c])), Sup pts e.1 e.2 := by
      intro e he
      rw [chain_snoc, List.mem_append] at he
      rcases he with he | he
      · exact hI.sup e he
      · rw [List.mem_singleton] at he
        rw [he, hlast]; exact hs
    by_cases hcm : c = m
    · rw [if_pos (by simpa using hcm)]
      refine ⟨used, hI, ?_, by rw [hcm]⟩
      rw [cyclicPairs_eq_chain]
      rw [hcm] at hch
      exact hch
    · rw [if_neg (by simpa using hcm)]
      have hI' : Inv pts m (used ++ [c]) := by
        refine ⟨?_, ?_, hch⟩
        · rw [← List.cons_append, List.nodup_append]
          refine ⟨hI.nodup, by simp, ?_⟩
          intro a ha b hb
          rw [List.mem_singleton] at hb
          subst hb
          rintro rfl
          rcases List.mem_cons.mp ha with h | h
          · exact hcm h
          · exact hn h
        · intro i hi
          rw [← List.cons_append, List.mem_append] at hi
          rcases hi with hi | hi
          · exact hI.lt i hi
          · rw [List.mem_singleton] at hi
            rw [hi]; exact hs.2.2.1
      have := ih (used ++ [c]) hI' c (by simp) (by simp; omega)
      rw [show (m :: (used ++ [c])).map (at' pts) = (m :: used).map (at' pts) ++ [at' pts c] by simp] at this
      exact this

/-- What `compute_wrapping_method` leaves behind, in terms of indices. -/
theorem wrapping_spec {pts : List (Vec ℝ)} (hg : HullPos (pts.map Vec.pt) EPSILON) (h3 : 3 ≤ pts.length) (h : Obj ℝ)
    (ha : h.aliased = false) (hp : h.input = pts) :
    ∃ m u, Inv pts m u ∧ 2 ≤ u.length ∧ (∀ e ∈ cyclicPairs (m :: u), Sup pts e.1 e.2) ∧ minPointIndex pts = (m : ℕ) ∧
      (∀ j < pts.length, ¬ LexLt (P pts j) (P pts m)) ∧
      (wrapping h).input = pts ∧ (wrapping h).aliased = false ∧
      (wrapping h).verts = (m :: u).map (at' pts) ∧
      (wrapping h).edges = hullEdges ((m :: u).map (at' pts) ++ [at' pts m]) := by
  obtain ⟨h0, _⟩ | ⟨m, hm, hme, hmin, _⟩ := C81_min_point_index pts
  · rw [h0] at h3; simp at h3
  have hmin' : ∀ j < pts.length, ¬ LexLt (P pts j) (P pts m) := by
    intro j hj
    unfold P
    rw [at'_pt pts hj, at'_pt pts hm]
    exact hmin j hj
  have hI : Inv pts m [] := ⟨by simp, by simpa using hm, by simp⟩
  obtain ⟨u, hIu, hcyc, hw⟩ := wrapLoop_spec hg h3 hmin' (pts.length + 1) [] hI m (by simp) (by simp)
  have hu : 2 ≤ u.length := by
    match u, hIu, hcyc with
    | [], _, hcyc =>
      exact absurd rfl (hcyc (m, m) (by simp [cyclicPairs])).1
    | [c], hIu, hcyc =>
      have e1 := hcyc (m, c) (by simp [cyclicPairs])
      have e2 := hcyc (c, m) (by simp [cyclicPairs])
      obtain ⟨t, ht, h1, h2⟩ : ∃ t < pts.length, t ≠ m ∧ t ≠ c := by
        by_cases h0 : (0 : ℕ) ≠ m ∧ (0 : ℕ) ≠ c
        · exact ⟨0, by omega, h0⟩
        · by_cases h1 : (1 : ℕ) ≠ m ∧ (1 : ℕ) ≠ c
          · exact ⟨1, by omega, h1⟩
          · exact ⟨2, by omega, by omega, by omega⟩
      have b1 := e1.2.2.2 t ht h1 h2
      have b2 := e2.2.2.2 t ht h2 h1
      unfold Before at b1 b2
      simp only at b1 b2
      rw [area2_swap] at b2
      linarith
    | a :: b :: t, _, _ => simp
  have hclr : h.clearResults = { h with verts := [], edges := [] } := by
    rw [Obj.clearResults, if_neg (by rw [ha]; simp)]
  have hwr : wrapping h = { h with
      verts := ((m :: u).map (at' pts) ++ [at' pts m]).dropLast,
      edges := hullEdges ((m :: u).map (at' pts) ++ [at' pts m]), aliased := false } := by
    unfold wrapping
    rw [hclr]
    simp only [hp, hme]
    rw [if_neg]
    · simp only [Int.toNat_natCast]
      rw [← hw]
      rfl
    · simp; omega
  refine ⟨m, u, hIu, hu, hcyc, hme, hmin', ?_, ?_, ?_, ?_⟩
  · rw [hwr]; exact hp
  · rw [hwr]
  · rw [hwr]; exact List.dropLast_concat
  · rw [hwr]

/-- **C78** Any number of points from three on, none repeated and no three of them on a line bounding the hull (`HullPos`): the vertices are input points, the first one is
the lexicographically least, no point appears twice, and every input point is on the left of or on every directed edge
between cyclically consecutive vertices. -/
theorem C78_wrapping (pts : List (Vec ℝ)) (h3 : 3 ≤ pts.length) (hg : HullPos (pts.map Vec.pt) EPSILON) (srt)
    (h' : Obj ℝ) (hc : compute srt (Obj.ofList pts) .wrapping = .ok h') :
    (∀ v ∈ h'.vertices, v ∈ pts) ∧
    (∃ v t, h'.vertices = v :: t ∧ ∀ p ∈ pts, ¬ LexLt p.pt v.pt) ∧
    (h'.vertices.map Vec.pt).Nodup ∧
    (∀ e ∈ cyclicPairs h'.vertices, ∀ p ∈ pts, 0 ≤ area2 e.1.pt e.2.pt p.pt) := by
  obtain rfl : wrapping (Obj.ofList pts) = h' := by simpa [compute] using hc
  obtain ⟨m, u, hI, hu, hcyc, hm, hmin, hin, hal, hv, he⟩ := wrapping_spec hg h3 (Obj.ofList pts) rfl rfl
  have hvs : (wrapping (Obj.ofList pts)).vertices = (m :: u).map (at' pts) := by
    rw [Obj.vertices, hal, ← hv]; rfl
  have hmem : ∀ i, i < pts.length → at' pts i ∈ pts := fun i hi => by rw [at'_pt pts hi]; exact List.getElem_mem hi
  rw [hvs]
  refine ⟨?_, ⟨_, _, rfl, ?_⟩, ?_, ?_⟩
  · intro v hv
    obtain ⟨i, hi, rfl⟩ := List.mem_map.mp hv
    exact hmem i (hI.lt i hi)
  · intro p hp
    obtain ⟨j, hj, rfl⟩ := List.mem_iff_getElem.mp hp
    have := hmin j hj
    unfold P at this
    rwa [at'_pt pts hj] at this
  · rw [List.map_map]
    refine List.Nodup.map_on ?_ hI.nodup
    intro i hi j hj hij
    exact P_inj hg (hI.lt i hi) (hI.lt j hj) hij
  · intro e he p hp
    rw [cyclicPairs_map] at he
    obtain ⟨f, hf, rfl⟩ := List.mem_map.mp he
    obtain ⟨j, hj, rfl⟩ := List.mem_iff_getElem.mp hp
    have hs := hcyc f hf
    simp only [Prod.map_fst, Prod.map_snd]
    rw [← at'_pt pts hj]
    by_cases h1 : j = f.1
    · rw [h1]; apply le_of_eq; unfold area2; ring
    · by_cases h2 : j = f.2
      · rw [h2]; apply le_of_eq; unfold area2; ring
      · exact (hs.2.2.2 j hj h1 h2).le

/-- **C78** (stronger) Under the same conditions the vertices form a strictly convex counter-clockwise polygon, and it is the
convex hull: the input points and the vertices have the same convex hull. -/
theorem C78_convex_hull (pts : List (Vec ℝ)) (h3 : 3 ≤ pts.length) (hg : HullPos (pts.map Vec.pt) EPSILON) :
    StrictConvex ((wrapping (Obj.ofList pts)).vertices.map Vec.pt) ∧
    convexHull ℝ {z | z ∈ (wrapping (Obj.ofList pts)).vertices.map Vec.pt} = convexHull ℝ {z | z ∈ pts.map Vec.pt} := by
  obtain ⟨m, u, hI, hu, hcyc, hm, hmin, hin, hal, hv, he⟩ := wrapping_spec hg h3 (Obj.ofList pts) rfl rfl
  have hvs : (wrapping (Obj.ofList pts)).vertices.map Vec.pt = (m :: u).map (P pts) := by
    rw [Obj.vertices, hal, hv, if_neg (by simp), List.map_map]; rfl
  have hcy : ∀ e ∈ cyclicPairs ((m :: u).map (P pts)), ∀ j < pts.length, P pts j ≠ e.1 → P pts j ≠ e.2 →
      0 < area2 e.1 e.2 (P pts j) := by
    intro e he j hj h1 h2
    rw [cyclicPairs_map] at he
    obtain ⟨f, hf, rfl⟩ := List.mem_map.mp he
    exact (hcyc f hf).2.2.2 j hj (fun h => h1 (by rw [h]; rfl)) (fun h => h2 (by rw [h]; rfl))
  have hsc : StrictConvex ((m :: u).map (P pts)) := by
    refine ⟨by simp; omega, ?_, ?_⟩
    · refine List.Nodup.map_on ?_ hI.nodup
      intro i hi j hj hij
      exact P_inj hg (hI.lt i hi) (hI.lt j hj) hij
    · intro e he z hz h1 h2
      obtain ⟨j, hj, rfl⟩ := List.mem_map.mp hz
      exact hcy e he j (hI.lt j hj) h1 h2
  rw [hvs]
  refine ⟨hsc, Set.Subset.antisymm ?_ ?_⟩
  · apply convexHull_mono
    intro z hz
    obtain ⟨i, hi, rfl⟩ := List.mem_map.mp hz
    have := hI.lt i hi
    refine List.mem_map.mpr ⟨at' pts i, ?_, rfl⟩
    rw [at'_pt pts this]; exact List.getElem_mem this
  · apply convexHull_min _ (convex_convexHull ℝ _)
    intro z hz
    obtain ⟨p, hp, rfl⟩ := List.mem_map.mp hz
    obtain ⟨j, hj, rfl⟩ := List.mem_iff_getElem.mp hp
    rw [← at'_pt pts hj]
    by_cases hju : j ∈ m :: u
    · exact subset_convexHull ℝ _ (List.mem_map_of_mem (f := P pts) hju)
    · have : P pts j ∈ leftOfAll ((m :: u).map (P pts)) := by
        intro e he
        have hne : ∀ i ∈ m :: u, P pts j ≠ P pts i := by
          intro i hi h
          exact hju (P_inj hg hj (hI.lt i hi) h ▸ hi)
        obtain ⟨i, hi, h1⟩ := List.mem_map.mp (fst_mem_of_cyclicPairs he)
        obtain ⟨k, hk, h2⟩ := List.mem_map.mp (snd_mem_of_cyclicPairs he)
        exact hcy e he j hj (h1 ▸ hne i hi) (h2 ▸ hne k hk)
      exact hsc.leftOfAll_subset_hull this

/-- **C78** and C73 together: after `compute`, `to_polygon().contains(p, False)` answers for every `p` whether it is inside
the convex hull of the input points, and `contains(p)` does so for every `p` that is not on the outline. -/
theorem C78_to_polygon (pts : List (Vec ℝ)) (h3 : 3 ≤ pts.length) (hg : HullPos (pts.map Vec.pt) EPSILON) (p : Vec ℝ) :
    ((wrapping (Obj.ofList pts)).toPolygon.contains p false = true ↔
      p.pt ∈ interior (convexHull ℝ {z | z ∈ pts.map Vec.pt})) ∧
    (p.pt ∉ outline ((wrapping (Obj.ofList pts)).vertices.map Vec.pt) →
      ((wrapping (Obj.ofList pts)).toPolygon.contains p true = true ↔
        p.pt ∈ interior (convexHull ℝ {z | z ∈ pts.map Vec.pt}))) := by
  obtain ⟨h1, h2⟩ := C78_convex_hull pts h3 hg
  rw [← h2]
  have := C73_convex (wrapping (Obj.ofList pts)).toPolygon h1 p
  exact ⟨this.2, this.1⟩

/-- Four points in general position, one of them inside the triangle of the others. -/
noncomputable def fourPts : List (Vec ℝ) := [⟨1, 1, true⟩, ⟨4, 0, true⟩, ⟨0, 0, true⟩, ⟨0, 4, true⟩]

theorem fourPts_genPos : GenPos (fourPts.map Vec.pt) EPSILON := by
  intro i j k hi hj hk hij hik hjk
  rw [EPSILON_real]
  simp only [fourPts, List.map_cons, List.map_nil, List.length_cons, List.length_nil] at hi hj hk ⊢
  interval_cases i <;> interval_cases j <;> interval_cases k <;> first
    | (exfalso; omega)
    | (norm_num [area2, Vec.pt, abs_of_nonneg, abs_of_neg])

example : (wrapping (Obj.ofList fourPts)).vertices = [⟨0, 0, true⟩, ⟨4, 0, true⟩, ⟨0, 4, true⟩] := by
  norm_num [wrapping, Obj.ofList, Obj.clearResults, Obj.vertices, fourPts, minPointIndex, List.range, List.range.loop,
    minStep, at', wrapLoop, nextIndex, firstCandidate, List.range', candStep, Tri.dsa, EPSILON_real, Vec.dist2,
    show Int.toNat 2 = 2 from rfl]

end Hull

/-! ## C79 -/

namespace Hull

theorem Vec.eq_real (a b : Vec ℝ) : Vec.eq a b = true ↔ a.pt = b.pt := by
  rw [Vec.pt_eq_iff]; simp [Vec.eq]

theorem chainPairs_eq_range (w : List (Vec ℝ)) (z : Vec ℝ) :
    chainPairs (w ++ [z]) = (List.range w.length).map (fun i => (at' (w ++ [z]) i, at' (w ++ [z]) (i + 1))) := by
  apply List.ext_getElem
  · simp [chainPairs]
  · intro i h1 h2
    have hi : i < w.length := by simpa using h2
    simp only [chainPairs, List.getElem_zip, List.getElem_tail, List.getElem_map, List.getElem_range]
    rw [at'_pt _ (by simp; omega), at'_pt _ (by simp; omega)]

/-- The edge loop: the chain of the vertices without the edges that start in a point equal to the last one. -/
theorem hullEdges_eq (w : List (Vec ℝ)) (z : Vec ℝ) [DecidableEq Pt] :
    hullEdges (w ++ [z]) =
      ((chainPairs (w ++ [z])).filter (fun e => decide (e.1.pt ≠ z.pt))).map (fun e => Seg.ofPoints e.1 e.2) := by
  have hz : at' (w ++ [z]) w.length = z := by rw [at'_pt _ (by simp)]; simp
  rw [chainPairs_eq_range, List.filter_map, List.map_map, ← List.filterMap_eq_map, List.filterMap_filter]
  unfold hullEdges
  rw [show (w ++ [z]).length = w.length + 1 by simp, Nat.add_sub_cancel, List.range_succ, List.filterMap_append, hz]
  have h2 : List.filterMap (fun i => if (!(at' (w ++ [z]) i).eq z) = true then
      some (Seg.ofPoints (at' (w ++ [z]) i) (at' (w ++ [z]) (i + 1))) else none) [w.length] = [] := by
    rw [List.filterMap_cons, if_neg (by rw [hz, (Vec.eq_real z z).mpr rfl]; simp)]; rfl
  rw [h2, List.append_nil]
  apply List.filterMap_congr
  intro i _
  by_cases h : (at' (w ++ [z]) i).pt = z.pt
  · rw [if_neg (by rw [(Vec.eq_real _ _).mpr h]; simp), if_neg (by simpa using h)]
  · have : (at' (w ++ [z]) i).eq z = false := by
      rw [Bool.eq_false_iff]; exact fun h' => h ((Vec.eq_real _ _).mp h')
    rw [if_pos (by rw [this]; rfl), if_pos (by simpa using h)]; rfl

/-- **C79** (part) Gift wrapping, input in general position: the edges are the segments between cyclically consecutive
vertices in order, *except the first one* (from `vertices()[0]` to `vertices()[1]`), which is missing. -/
theorem C79_wrapping_partial (pts : List (Vec ℝ)) (h3 : 3 ≤ pts.length) (hg : HullPos (pts.map Vec.pt) EPSILON) :
    (wrapping (Obj.ofList pts)).getEdges =
      (cyclicPairs (wrapping (Obj.ofList pts)).vertices).tail.map (fun e => Seg.ofPoints e.1 e.2) := by
  classical
  obtain ⟨m, u, hI, hu, hcyc, hm, hmin, hin, hal, hv, he⟩ := wrapping_spec hg h3 (Obj.ofList pts) rfl rfl
  have hvs : (wrapping (Obj.ofList pts)).vertices = (m :: u).map (at' pts) := by
    rw [Obj.vertices, hal, ← hv]; rfl
  rw [hvs, Obj.getEdges, he, hullEdges_eq]
  congr 1
  rw [List.map_cons, cyclicPairs_eq_chain, List.cons_append]
  obtain ⟨c, t, rfl⟩ : ∃ c t, u = c :: t := by
    cases u with
    | nil => simp at hu
    | cons c t => exact ⟨c, t, rfl⟩
  rw [List.map_cons, List.cons_append, chainPairs_cons_cons, List.tail_cons, List.filter_cons_of_neg (by simp)]
  rw [List.filter_eq_self]
  intro e he
  rw [← List.cons_append, ← List.map_cons (f := at' pts)] at he
  obtain ⟨i, hi, hie⟩ := List.mem_map.mp (fst_mem_of_chain he)
  simp only [ne_eq, decide_not, Bool.not_eq_true', decide_eq_false_iff_not]
  intro h
  rw [← hie] at h
  have := P_inj hg (hI.lt i (List.mem_cons_of_mem _ hi)) (hI.lt m (by simp)) h
  rw [this] at hi
  exact (List.nodup_cons.mp hI.nodup).1 hi

/-- **C79 is false** for gift wrapping: for *every* input in general position some point of the outline of the vertices is
on none of the edges. -/
theorem C79_refuted (pts : List (Vec ℝ)) (h3 : 3 ≤ pts.length) (hg : HullPos (pts.map Vec.pt) EPSILON) :
    ∃ z ∈ outline ((wrapping (Obj.ofList pts)).vertices.map Vec.pt),
      ∀ s ∈ (wrapping (Obj.ofList pts)).getEdges, z ∉ s.pts := by
  obtain ⟨H, -⟩ := C78_convex_hull pts h3 hg
  rw [C79_wrapping_partial pts h3 hg]
  generalize (wrapping (Obj.ofList pts)).vertices = V at H
  cases hcp : cyclicPairs (V.map Vec.pt) with
  | nil =>
    have := length_cyclicPairs (V.map Vec.pt)
    rw [hcp] at this
    have h := H.three
    simp at this h
    omega
  | cons f E =>
    have hf : f ∈ cyclicPairs (V.map Vec.pt) := by rw [hcp]; simp
    refine ⟨midpoint ℝ f.1 f.2, ⟨f, hf, midpoint_mem_segment _ _⟩, ?_⟩
    intro s hs hz
    obtain ⟨e', he', rfl⟩ := List.mem_map.mp hs
    set e : Pt × Pt := (e'.1.pt, e'.2.pt) with hedef
    have heE : e ∈ E := by
      have h1 : (cyclicPairs V).tail.map (Prod.map Vec.pt Vec.pt) = E := by
        rw [List.map_tail, ← cyclicPairs_map, hcp]; rfl
      rw [← h1]
      exact List.mem_map_of_mem (f := Prod.map Vec.pt Vec.pt) he'
    have he : e ∈ cyclicPairs (V.map Vec.pt) := by rw [hcp]; exact List.mem_cons_of_mem _ heE
    have hne : e ≠ f := by
      intro h
      have := H.nodup_pairs
      rw [hcp, List.nodup_cons] at this
      exact this.1 (h ▸ heE)
    have hz' : area2 e.1 e.2 (midpoint ℝ f.1 f.2) = 0 := by
      obtain ⟨a, b, _, _, hab, h⟩ := hz
      change a • e.1 + b • e.2 = _ at h
      rw [← h, area2_affine _ _ _ _ _ _ hab]
      unfold area2; ring
    have hmid : area2 e.1 e.2 (midpoint ℝ f.1 f.2) = (area2 e.1 e.2 f.1 + area2 e.1 e.2 f.2) / 2 := by
      have : midpoint ℝ f.1 f.2 = (1 / 2 : ℝ) • f.1 + (1 / 2 : ℝ) • f.2 := by
        rw [midpoint_eq_smul_add, smul_add]; norm_num
      rw [this, area2_affine _ _ _ _ _ _ (by norm_num)]; ring
    have w1 := H.weak he (fst_mem_of_cyclicPairs hf)
    have w2 := H.weak he (snd_mem_of_cyclicPairs hf)
    have z1 : area2 e.1 e.2 f.1 = 0 := by linarith
    have z2 : area2 e.1 e.2 f.2 = 0 := by linarith
    have hfne := H.ne hf
    rcases H.mem_of_zero he (fst_mem_of_cyclicPairs hf) z1 with h1 | h1
    · exact hne (H.fst_inj he hf h1.symm)
    · rcases H.mem_of_zero he (snd_mem_of_cyclicPairs hf) z2 with h2 | h2
      · -- `e` is `f` reversed
        obtain ⟨t, ht, t1, t2⟩ := H.third f.1 f.2
        have p1 := H.left f hf t ht t1 t2
        have p2 := H.left e he t ht (h2 ▸ t2) (h1 ▸ t1)
        rw [← h1, ← h2, area2_swap] at p2
        linarith
      · exact hfne (h1.trans h2.symm)

/-- The list object returned by the Graham scan is the input list. -/
theorem graham_ok {srt} {h h' : Obj ℝ} (hok : graham srt h = .ok h') (h3 : 3 ≤ h.clearResults.input.length) :
    ∃ v0 vl, pyGet h'.input 0 = .ok v0 ∧ pyGet h'.input (-1) = .ok vl ∧ h'.aliased = true ∧
      h'.edges = hullEdges h'.input ++ [Seg.ofPoints v0 vl] := by
  have hm : minPointIndex h.clearResults.input ≠ -1 := by
    rcases C81_min_point_index h.clearResults.input with ⟨h0, _⟩ | ⟨k, _, hk, _⟩
    · rw [h0] at h3; simp at h3
    · rw [hk]; omega
  unfold graham at hok
  simp only at hok
  rw [if_neg (by simp; exact ⟨by omega, hm⟩)] at hok
  simp only [bind, Except.bind, pure, Except.pure] at hok
  split at hok
  · cases hok
  · split at hok
    · cases hok
    · split at hok
      · cases hok
      · cases hok
        exact ⟨_, _, by assumption, by assumption, rfl, rfl⟩

/-- **C79** (part) Graham scan, whenever it returns: if the last vertex is not repeated among the others, the edges are
exactly the segments between cyclically consecutive vertices (the closing edge is stored from first to last). -/
theorem C79_graham_partial (srt) (h h' : Obj ℝ) (hok : graham srt h = .ok h') (h3 : 3 ≤ h.clearResults.input.length)
    (w : List (Vec ℝ)) (z : Vec ℝ) (hv : h'.vertices = w ++ [z]) (hz : ∀ v ∈ w, v.pt ≠ z.pt) :
    h'.getEdges = (chainPairs h'.vertices).map (fun e => Seg.ofPoints e.1 e.2) ++
        [Seg.ofPoints ((w ++ [z]).head (by simp)) z] ∧
    {p | ∃ s ∈ h'.getEdges, p ∈ s.pts} = outline (h'.vertices.map Vec.pt) := by
  classical
  obtain ⟨v0, vl, e0, el, hal, he⟩ := graham_ok hok h3
  have hvi : h'.vertices = h'.input := by rw [Obj.vertices, hal]; rfl
  rw [hvi] at hv
  rw [hv] at e0 el
  have h0 : v0 = (w ++ [z]).head (by simp) := by
    unfold pyGet at e0
    simp only [lt_self_iff_false, if_false] at e0
    cases w with
    | nil => simpa using e0.symm
    | cons a t => simpa using e0.symm
  have hl : vl = z := by
    unfold pyGet at el
    simp at el
    rw [if_neg (by omega)] at el
    cases el; rfl
  have hE : h'.getEdges = (chainPairs h'.vertices).map (fun e => Seg.ofPoints e.1 e.2) ++
        [Seg.ofPoints ((w ++ [z]).head (by simp)) z] := by
    rw [Obj.getEdges, he, hvi, h0, hl, hv, hullEdges_eq, List.filter_eq_self.mpr]
    intro e he
    simpa using hz _ (fst_mem_of_chain he)
  refine ⟨hE, ?_⟩
  rw [hE, hvi, hv]
  obtain ⟨a, t, hat⟩ : ∃ a t, w ++ [z] = a :: t := by cases w <;> simp
  have hlast : (a :: t).getLast (by simp) = z := by
    simp only [← hat]; simp
  simp only [hat, List.head_cons]
  ext p
  simp only [outline, Set.mem_ofPred_eq, List.map_cons]
  rw [← List.map_cons (f := Vec.pt), cyclicPairs_map, cyclicPairs_eq_chain, chain_snoc, hlast]
  constructor
  · rintro ⟨s, hs, hp⟩
    rcases List.mem_append.mp hs with hs | hs
    · obtain ⟨e, he, rfl⟩ := List.mem_map.mp hs
      exact ⟨_, List.mem_map_of_mem (List.mem_append_left _ he), hp⟩
    · rw [List.mem_singleton] at hs
      subst hs
      refine ⟨_, List.mem_map_of_mem (List.mem_append_right _ (List.mem_singleton.mpr rfl)), ?_⟩
      rw [segment_symm]; exact hp
  · rintro ⟨e, he, hp⟩
    obtain ⟨f, hf, rfl⟩ := List.mem_map.mp he
    rcases List.mem_append.mp hf with hf | hf
    · exact ⟨_, List.mem_append_left _ (List.mem_map_of_mem hf), hp⟩
    · rw [List.mem_singleton] at hf
      subst hf
      refine ⟨_, List.mem_append_right _ (List.mem_singleton.mpr rfl), ?_⟩
      rw [segment_symm] at hp; exact hp

end Hull

/-! ## C80 -/

/-- What the theorems below assume of `list.sort`: the result is a permutation, sorted if the comparison is a strict total
order on the elements. -/
def Spec.Sorts {α : Type} (srt : (α → α → Bool) → List α → List α) : Prop :=
  ∀ lt l, (srt lt l).Perm l ∧
    ((∀ a ∈ l, lt a a = false) → (∀ a ∈ l, ∀ b ∈ l, ∀ c ∈ l, lt a b = true → lt b c = true → lt a c = true) →
      (∀ a ∈ l, ∀ b ∈ l, a = b ∨ lt a b = true ∨ lt b a = true) →
      (srt lt l).Pairwise (fun a b => lt b a = false))

/-- The assumption holds for merge sort. -/
theorem Spec.sorts_mergeSort {α : Type} :
    Spec.Sorts (fun lt (l : List α) => (l.attach.mergeSort (fun a b => !lt b.1 a.1)).map Subtype.val) := by
  intro lt l
  constructor
  · have := (List.mergeSort_perm l.attach (fun a b => !lt b.1 a.1)).map Subtype.val
    rwa [List.attach_map_subtype_val] at this
  · intro hi ht htot
    rw [List.pairwise_map]
    have := List.pairwise_mergeSort (le := fun a b : {x // x ∈ l} => !lt b.1 a.1) ?_ ?_ l.attach
    · exact this.imp (fun h => by simpa using h)
    · intro a b c hab hbc
      simp only [Bool.not_eq_true'] at hab hbc ⊢
      cases hca : lt c.1 a.1 with
      | false => rfl
      | true =>
        exfalso
        rcases htot c.1 c.2 b.1 b.2 with h | h | h
        · rw [h, hab] at hca; exact Bool.false_ne_true hca
        · rw [hbc] at h; exact Bool.false_ne_true h
        · rw [ht _ b.2 _ c.2 _ a.2 h hca] at hab; exact Bool.false_ne_true hab.symm
    · intro a b
      simp only [Bool.or_eq_true, Bool.not_eq_true']
      cases h1 : lt b.1 a.1 with
      | false => exact Or.inl rfl
      | true =>
        right
        cases h2 : lt a.1 b.1 with
        | false => rfl
        | true =>
          have := ht _ a.2 _ b.2 _ a.2 h2 h1
          rw [hi _ a.2] at this
          exact absurd this Bool.false_ne_true

namespace Hull

/-- `compute` called once for every method of the list. -/
noncomputable def computes (srt : (Vec ℝ → Vec ℝ → Bool) → List (Vec ℝ) → List (Vec ℝ)) :
    Obj ℝ → List Method → Except PyErr (Obj ℝ)
  | h, [] => .ok h
  | h, m :: ms => do computes srt (← compute srt h m) ms

theorem clearResults_input {h : Obj ℝ} (ha : h.aliased = false) : h.clearResults = Obj.ofList h.input := by
  rw [Obj.clearResults, if_neg (by simp [ha]), Obj.ofList]
  simp [ha]

theorem compute_fresh {srt} {h : Obj ℝ} (ha : h.aliased = false) (m : Method) (hm : m ≠ .graham) :
    ∃ h', compute srt h m = .ok h' ∧ compute srt (Obj.ofList h.input) m = .ok h' ∧ h'.aliased = false ∧
      h'.input = h.input := by
  have hc : (Obj.ofList h.input).clearResults = Obj.ofList h.input := clearResults_input (h := Obj.ofList h.input) rfl
  cases m with
  | graham => exact absurd rfl hm
  | wrapping =>
    refine ⟨wrapping h, rfl, ?_, ?_, ?_⟩
    · simp only [compute, wrapping, clearResults_input ha, hc]
    · unfold wrapping
      rw [clearResults_input ha]
      simp only
      split <;> rfl
    · unfold wrapping
      rw [clearResults_input ha]
      simp only
      split <;> rfl
  | direct =>
    refine ⟨direct srt h, rfl, ?_, ?_, ?_⟩
    · simp only [compute, direct, clearResults_input ha, hc]
    · unfold direct
      rw [clearResults_input ha]
      simp only
      split <;> rfl
    · unfold direct
      rw [clearResults_input ha]
      simp only
      split <;> rfl

/-- **C80** (part) Any number of `compute` calls with the other two methods: nothing is raised, the input list is unchanged
and the result is that of the last call alone on a fresh object (so a repeated call gives the same result). -/
theorem C80_no_graham_partial (srt) (pts : List (Vec ℝ)) (ms : List Method) (m : Method) (hms : ∀ k ∈ ms, k ≠ .graham)
    (hm : m ≠ .graham) :
    ∃ h', computes srt (Obj.ofList pts) (ms ++ [m]) = .ok h' ∧ compute srt (Obj.ofList pts) m = .ok h' ∧
      h'.inputPoints = pts := by
  suffices H : ∀ h : Obj ℝ, h.aliased = false → h.input = pts →
      ∃ h', computes srt h (ms ++ [m]) = .ok h' ∧ compute srt (Obj.ofList pts) m = .ok h' ∧ h'.inputPoints = pts from
    H (Obj.ofList pts) rfl rfl
  induction ms with
  | nil =>
    intro h ha hp
    obtain ⟨h', h1, h2, h3, h4⟩ := compute_fresh (srt := srt) ha m hm
    refine ⟨h', ?_, hp ▸ h2, h4.trans hp⟩
    simp [computes, h1, bind, Except.bind]
  | cons k ms ih =>
    intro h ha hp
    obtain ⟨h1, e1, e2, e3, e4⟩ := compute_fresh (srt := srt) ha k (hms k (by simp))
    obtain ⟨h', g1, g2, g3⟩ := ih (fun k hk => hms k (List.mem_cons_of_mem _ hk)) h1 e3 (e4.trans hp)
    refine ⟨h', ?_, g2, g3⟩
    rw [List.cons_append, computes, e1]
    exact g1

example : ∃ h', computes (fun _ l => l) (Obj.ofList fourPts) [.direct, .wrapping, .wrapping] = .ok h' ∧
    h'.inputPoints = fourPts :=
  let ⟨h', h1, _, h3⟩ := C80_no_graham_partial (fun _ l => l) fourPts [.direct, .wrapping] .wrapping
    (by intro k hk; fin_cases hk <;> decide) (by decide)
  ⟨h', h1, h3⟩

/-- **C80 is false** for the Graham scan: whenever it returned on at least three points, the next `compute` (any method)
deletes all input points and yields no vertices. -/
theorem C80_refuted_twice (srt) (h h' : Obj ℝ) (hok : graham srt h = .ok h') (h3 : 3 ≤ h.clearResults.input.length)
    (m : Method) : ∃ h'', compute srt h' m = .ok h'' ∧ h''.inputPoints = [] ∧ h''.vertices = [] := by
  obtain ⟨v0, vl, e0, el, hal, he⟩ := graham_ok hok h3
  have hc : h'.clearResults = { h' with input := [], edges := [] } := by
    rw [Obj.clearResults, if_pos hal]
  have : compute srt h' m = .ok { h' with input := [], edges := [] } := by
    cases m with
    | direct => simp [compute, direct, hc]
    | wrapping => simp [compute, wrapping, hc]
    | graham => simp [compute, graham, hc, pure, Except.pure]
  exact ⟨_, this, rfl, by rw [Obj.vertices, hal]; rfl⟩

/-- Three points; the Graham scan sorts them clockwise about the origin. -/
noncomputable def threePts : List (Vec ℝ) := [⟨1, 0, true⟩, ⟨0, 1, true⟩, ⟨1, 1, true⟩]

/-- **C80 is false**: on `[(1,0), (0,1), (1,1)]` the Graham scan returns with the caller's list reordered to
`[(0,1), (1,1), (1,0)]`, and a second `compute` empties the caller's list. -/
theorem C80_refuted (srt) (hs : Spec.Sorts srt) :
    ∃ h', compute srt (Obj.ofList threePts) .graham = .ok h' ∧
      h'.inputPoints = [⟨0, 1, true⟩, ⟨1, 1, true⟩, ⟨1, 0, true⟩] ∧ h'.inputPoints ≠ threePts ∧
      h'.vertices = [⟨0, 1, true⟩, ⟨1, 1, true⟩, ⟨1, 0, true⟩] ∧
      ∃ h'', compute srt h' .graham = .ok h'' ∧ h''.inputPoints = [] ∧ h''.vertices = [] := by
  have hsort : srt (fun a b => decide (angleSortPredicate a b Vec.zero < 0))
      ([⟨0, 1, true⟩, ⟨1, 0, true⟩, ⟨1, 1, true⟩] : List (Vec ℝ)) = [⟨0, 1, true⟩, ⟨1, 1, true⟩, ⟨1, 0, true⟩] := by
    obtain ⟨h1, h2⟩ := hs (fun a b => decide (angleSortPredicate a b Vec.zero < 0))
      ([⟨0, 1, true⟩, ⟨1, 0, true⟩, ⟨1, 1, true⟩] : List (Vec ℝ))
    have hp : ([⟨0, 1, true⟩, ⟨1, 0, true⟩, ⟨1, 1, true⟩] : List (Vec ℝ)).Perm
        [⟨0, 1, true⟩, ⟨1, 1, true⟩, ⟨1, 0, true⟩] := (List.Perm.swap _ _ _).cons _
    refine List.Perm.eq_of_pairwise (le := fun a b => decide (angleSortPredicate b a Vec.zero < 0) = false) ?_
      (h2 ?_ ?_ ?_) ?_ (h1.trans hp)
    · intro a b ha hb
      have ha' := h1.subset ha
      fin_cases ha' <;> fin_cases hb <;>
        norm_num [angleSortPredicate, Tri.dsa, Vec.zero, EPSILON_real, Vec.dist2]
    · intro a ha
      fin_cases ha <;> norm_num [angleSortPredicate, Tri.dsa, Vec.zero, EPSILON_real, Vec.dist2]
    · intro a ha b hb c hc
      fin_cases ha <;> fin_cases hb <;> fin_cases hc <;>
        norm_num [angleSortPredicate, Tri.dsa, Vec.zero, EPSILON_real, Vec.dist2]
    · intro a ha b hb
      fin_cases ha <;> fin_cases hb <;>
        norm_num [angleSortPredicate, Tri.dsa, Vec.zero, EPSILON_real, Vec.dist2]
    · simp only [List.pairwise_cons, List.mem_cons, List.not_mem_nil, or_false, forall_eq_or_imp, forall_eq]
      norm_num [angleSortPredicate, Tri.dsa, Vec.zero, EPSILON_real, Vec.dist2]
  have hmi : minPointIndex threePts = 1 := by
    norm_num [threePts, minPointIndex, List.range, List.range.loop, minStep, at']
  have hsf : sortFrom srt threePts 1 = [⟨0, 1, true⟩, ⟨1, 1, true⟩, ⟨1, 0, true⟩] := by
    rw [← hsort]
    simp [sortFrom, threePts, at']
  have hg : ∃ E, graham srt (Obj.ofList threePts) = .ok
      { input := [⟨0, 1, true⟩, ⟨1, 1, true⟩, ⟨1, 0, true⟩], verts := [], edges := E, aliased := true } := by
    have hcl : (Obj.ofList threePts).clearResults = Obj.ofList threePts :=
      clearResults_input (h := Obj.ofList threePts) rfl
    have hf : grahamFor [2] ([⟨0, 1, true⟩, ⟨1, 1, true⟩, ⟨1, 0, true⟩] : List (Vec ℝ)) 1 =
        .ok ([⟨0, 1, true⟩, ⟨1, 1, true⟩, ⟨1, 0, true⟩], 2) := by
      simp only [grahamFor, grahamWhile, pyGet, pySet, isClockwise, bind, Except.bind, pure, Except.pure]
      norm_num [Tri.dsa, EPSILON_real, show Int.toNat 2 = 2 from rfl]
    refine ⟨hullEdges [⟨0, 1, true⟩, ⟨1, 1, true⟩, ⟨1, 0, true⟩] ++ [Seg.ofPoints ⟨0, 1, true⟩ ⟨1, 0, true⟩], ?_⟩
    unfold graham
    rw [hcl]
    simp only [Obj.ofList, hmi, show Int.toNat 1 = 1 from rfl, hsf]
    rw [if_neg (by simp [threePts])]
    simp only [show threePts.length = 3 from rfl, show List.range' 2 (3 - 2) = [2] from rfl, hf, bind, Except.bind,
      pure, Except.pure]
    rfl
  obtain ⟨E, hE⟩ := hg
  refine ⟨_, hE, rfl, ?_, rfl, C80_refuted_twice srt _ _ hE (by rw [clearResults_input rfl]; simp [Obj.ofList, threePts])
    .graham⟩
  simp [Obj.inputPoints, threePts]

end Hull

end PyrusGeom
