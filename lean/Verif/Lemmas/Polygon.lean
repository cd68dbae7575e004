import Verif.Lemmas.Segment
import Verif.Model.Polygon
import Mathlib.Data.List.Rotate
import Mathlib.Algebra.BigOperators.Group.List.Basic
import Mathlib.Algebra.Group.Nat.Even
import Mathlib.Algebra.Ring.Parity
import Mathlib.Analysis.Convex.Hull
import Mathlib.Topology.Algebra.Monoid
import Mathlib.Topology.Instances.Real.Lemmas
import Mathlib.Tactic.FunProp

/-! # Cyclic edge lists and the even-odd rule (no model functions except `cyclicPairs`, `chainPairs`) -/

namespace PyrusGeom
open Spec

variable {α β : Type}

/-! ## Edge lists -/

theorem cyclicPairs_cons (a : α) (t : List α) : cyclicPairs (a :: t) = (a :: t).zip (t ++ [a]) := rfl

@[simp] theorem cyclicPairs_nil : cyclicPairs ([] : List α) = [] := rfl

theorem cyclicPairs_eq_zip (l : List α) : cyclicPairs l = l.zip (l.rotate 1) := by
  cases l with
  | nil => rfl
  | cons a t => rw [cyclicPairs_cons]; simp

@[simp] theorem chainPairs_nil : chainPairs ([] : List α) = [] := rfl
@[simp] theorem chainPairs_single (a : α) : chainPairs [a] = [] := rfl
@[simp] theorem chainPairs_cons_cons (a b : α) (t : List α) :
    chainPairs (a :: b :: t) = (a, b) :: chainPairs (b :: t) := rfl

theorem chainPairs_append (l₁ : List α) (b : α) (l₂ : List α) :
    chainPairs (l₁ ++ b :: l₂) = chainPairs (l₁ ++ [b]) ++ chainPairs (b :: l₂) := by
  induction l₁ with
  | nil => simp
  | cons a l₁ ih =>
    cases l₁ with
    | nil => simp
    | cons c l₁ => simpa using ih

theorem chainPairs_reverse (l : List α) : chainPairs l.reverse = ((chainPairs l).map Prod.swap).reverse := by
  induction l with
  | nil => rfl
  | cons a t ih =>
    cases t with
    | nil => rfl
    | cons b t =>
      rw [List.reverse_cons, List.reverse_cons, List.append_assoc, List.singleton_append, chainPairs_append,
        ← List.reverse_cons, ih]
      simp

theorem cyclicPairs_eq_chain (a : α) (t : List α) : cyclicPairs (a :: t) = chainPairs (a :: (t ++ [a])) := by
  unfold chainPairs
  rw [cyclicPairs_cons, List.tail_cons]
  have h : (a :: (t ++ [a])) = (a :: t) ++ [a] := by simp
  have h2 : ((a :: t) ++ [a]).zip (t ++ [a]) = ((a :: t) ++ [a]).zip ((t ++ [a]) ++ []) := by simp
  rw [h, h2, List.zip_append (by simp)]
  simp

theorem length_cyclicPairs (l : List α) : (cyclicPairs l).length = l.length := by
  rw [cyclicPairs_eq_zip]; simp

theorem map_fst_cyclicPairs (l : List α) : (cyclicPairs l).map Prod.fst = l := by
  rw [cyclicPairs_eq_zip, List.map_fst_zip]; simp

theorem map_snd_cyclicPairs (l : List α) : (cyclicPairs l).map Prod.snd = l.rotate 1 := by
  rw [cyclicPairs_eq_zip, List.map_snd_zip]; simp

theorem fst_mem_of_cyclicPairs {l : List α} {e : α × α} (h : e ∈ cyclicPairs l) : e.1 ∈ l := by
  rw [← map_fst_cyclicPairs l]; exact List.mem_map_of_mem h

theorem snd_mem_of_cyclicPairs {l : List α} {e : α × α} (h : e ∈ cyclicPairs l) : e.2 ∈ l := by
  have : e.2 ∈ (cyclicPairs l).map Prod.snd := List.mem_map_of_mem h
  rw [map_snd_cyclicPairs] at this
  exact List.mem_rotate.mp this

theorem cyclicPairs_map (f : α → β) (l : List α) : cyclicPairs (l.map f) = (cyclicPairs l).map (Prod.map f f) := by
  rw [cyclicPairs_eq_zip, cyclicPairs_eq_zip, ← List.map_rotate, List.zip_map]

theorem cyclicPairs_rotate (l : List α) (n : ℕ) : cyclicPairs (l.rotate n) = (cyclicPairs l).rotate n := by
  rw [cyclicPairs_eq_zip, cyclicPairs_eq_zip, List.rotate_rotate, Nat.add_comm, ← List.rotate_rotate]
  have := List.zipWith_rotate_distrib (Prod.mk : α → α → α × α) l (l.rotate 1) n (by simp)
  exact this.symm

theorem cyclicPairs_rotate_perm (l : List α) (n : ℕ) : (cyclicPairs (l.rotate n)).Perm (cyclicPairs l) := by
  rw [cyclicPairs_rotate]; exact List.rotate_perm _ _

theorem cyclicPairs_reverse_perm (l : List α) :
    (cyclicPairs l.reverse).Perm ((cyclicPairs l).map Prod.swap) := by
  cases l with
  | nil => exact List.Perm.refl _
  | cons a t =>
    have h : (a :: t.reverse).rotate 1 = (a :: t).reverse := by simp
    rw [← h]
    refine (cyclicPairs_rotate_perm _ _).trans ?_
    have h2 : a :: (t.reverse ++ [a]) = (a :: (t ++ [a])).reverse := by simp
    rw [cyclicPairs_eq_chain, h2, chainPairs_reverse, cyclicPairs_eq_chain]
    exact List.reverse_perm _

/-! ## Half-open crossing rule -/

/-- The half line from `p` to the right. -/
def Spec.rayRight (p : Pt) : Set Pt := {z | z.2 = p.2 ∧ p.1 ≤ z.1}

/-- The edge `a b` reaches from the height of `p` or below to a greater height, and meets the half line from `p` to the
right. -/
def Spec.Crosses (p a b : Pt) : Prop :=
  ((a.2 ≤ p.2 ∧ p.2 < b.2) ∨ (b.2 ≤ p.2 ∧ p.2 < a.2)) ∧ (segment ℝ a b ∩ rayRight p).Nonempty

open Classical in
/-- Number of list elements with a property. -/
noncomputable def Spec.count (P : α → Prop) (l : List α) : ℕ := l.countP (fun e => decide (P e))

theorem count_perm {P : α → Prop} {l l' : List α} (h : l.Perm l') : Spec.count P l = Spec.count P l' :=
  h.countP_eq _

theorem count_congr {P Q : α → Prop} {l : List α} (h : ∀ e ∈ l, P e ↔ Q e) : Spec.count P l = Spec.count Q l := by
  unfold Spec.count
  exact List.countP_congr (fun e he => by simp [h e he])

theorem count_map {P : β → Prop} (f : α → β) (l : List α) : Spec.count P (l.map f) = Spec.count (fun e => P (f e)) l := by
  unfold Spec.count
  rw [List.countP_map]; rfl

@[simp] theorem count_nil (P : α → Prop) : Spec.count P [] = 0 := rfl

open Classical in
theorem count_cons (P : α → Prop) (a : α) (l : List α) :
    Spec.count P (a :: l) = Spec.count P l + if P a then 1 else 0 := by
  unfold Spec.count
  rw [List.countP_cons]; simp

theorem seg_at_height {a b p : Pt} (h : a.2 ≠ b.2) (hb : Btw a.2 b.2 p.2) {z : Pt} :
    (z ∈ segment ℝ a b ∧ z.2 = p.2) ↔
      z = (a.1 + (p.2 - a.2) / (b.2 - a.2) * (b.1 - a.1), p.2) := by
  have hne : b.2 - a.2 ≠ 0 := sub_ne_zero.mpr h.symm
  constructor
  · rintro ⟨hz, h2⟩
    obtain ⟨t, _, _, hx, hy⟩ := mem_seg.mp hz
    have : t = (p.2 - a.2) / (b.2 - a.2) := by field_simp; linarith
    exact Prod.ext (by rw [hx, this]) h2
  · rintro rfl
    obtain ⟨p0, p1⟩ := param_of_btw hb h
    exact ⟨mem_seg.mpr ⟨_, p0, p1, rfl, by field_simp; ring⟩, rfl⟩

theorem meets_ray_up {a b p : Pt} (h1 : a.2 ≤ p.2) (h2 : p.2 < b.2) :
    (segment ℝ a b ∩ rayRight p).Nonempty ↔ 0 ≤ area2 a b p := by
  have hlt : 0 < b.2 - a.2 := by linarith
  have key : p.1 ≤ a.1 + (p.2 - a.2) / (b.2 - a.2) * (b.1 - a.1) ↔ 0 ≤ area2 a b p := by
    rw [← sub_nonneg, show a.1 + (p.2 - a.2) / (b.2 - a.2) * (b.1 - a.1) - p.1 = area2 a b p / (b.2 - a.2) by
      unfold area2; field_simp; ring, le_div_iff₀ hlt, zero_mul]
  have hh : ∀ z : Pt, (z ∈ segment ℝ a b ∧ z.2 = p.2) ↔ _ := fun z =>
    seg_at_height (by linarith : a.2 ≠ b.2) (Or.inl ⟨h1, h2.le⟩)
  rw [← key]
  constructor
  · rintro ⟨z, hz, hz2, hz1⟩
    rw [(hh z).mp ⟨hz, hz2⟩] at hz1; exact hz1
  · intro h
    obtain ⟨g1, g2⟩ := (hh _).mpr rfl
    exact ⟨_, g1, g2, h⟩

theorem area2_swap (a b p : Pt) : area2 b a p = -area2 a b p := by unfold area2; ring

theorem meets_ray_down {a b p : Pt} (h1 : b.2 ≤ p.2) (h2 : p.2 < a.2) :
    (segment ℝ a b ∩ rayRight p).Nonempty ↔ area2 a b p ≤ 0 := by
  rw [segment_symm, meets_ray_up h1 h2, area2_swap]; simp

/-- The crossing rule in terms of orientation. -/
theorem crosses_iff {p a b : Pt} : Crosses p a b ↔
    (a.2 ≤ p.2 ∧ p.2 < b.2 ∧ 0 ≤ area2 a b p) ∨ (b.2 ≤ p.2 ∧ p.2 < a.2 ∧ area2 a b p ≤ 0) := by
  unfold Crosses
  constructor
  · rintro ⟨⟨h1, h2⟩ | ⟨h1, h2⟩, h⟩
    · exact Or.inl ⟨h1, h2, (meets_ray_up h1 h2).mp h⟩
    · exact Or.inr ⟨h1, h2, (meets_ray_down h1 h2).mp h⟩
  · rintro (⟨h1, h2, h⟩ | ⟨h1, h2, h⟩)
    · exact ⟨Or.inl ⟨h1, h2⟩, (meets_ray_up h1 h2).mpr h⟩
    · exact ⟨Or.inr ⟨h1, h2⟩, (meets_ray_down h1 h2).mpr h⟩

theorem crosses_swap {p a b : Pt} : Crosses p b a ↔ Crosses p a b := by
  unfold Crosses
  rw [segment_symm]
  tauto

/-- The number of edges of a closed polygon leaving upwards through a height is the number of edges coming back. -/
theorem up_eq_down (l : List Pt) (y : ℝ) :
    Spec.count (fun e : Pt × Pt => e.1.2 ≤ y ∧ y < e.2.2) (cyclicPairs l) =
    Spec.count (fun e : Pt × Pt => e.2.2 ≤ y ∧ y < e.1.2) (cyclicPairs l) := by
  have key : ∀ L : List (Pt × Pt),
      Spec.count (fun e : Pt × Pt => e.1.2 ≤ y ∧ y < e.2.2) L + Spec.count (fun q : Pt => y < q.2) (L.map Prod.fst) =
      Spec.count (fun e : Pt × Pt => e.2.2 ≤ y ∧ y < e.1.2) L + Spec.count (fun q : Pt => y < q.2) (L.map Prod.snd) := by
    intro L
    induction L with
    | nil => rfl
    | cons e L ih =>
      simp only [count_cons, List.map_cons]
      rcases lt_or_ge y e.1.2 with h1 | h1 <;> rcases lt_or_ge y e.2.2 with h2 | h2 <;>
        simp only [h1, h2, not_le.mpr, not_lt.mpr, and_true, and_false, if_true, if_false] <;> omega
  have h := key (cyclicPairs l)
  rw [map_fst_cyclicPairs, map_snd_cyclicPairs, count_perm (List.rotate_perm l 1)] at h
  omega

theorem count_or {γ : Type} {P Q : γ → Prop} (l : List γ) (h : ∀ e ∈ l, ¬ (P e ∧ Q e)) :
    Spec.count (fun e => P e ∨ Q e) l = Spec.count P l + Spec.count Q l := by
  induction l with
  | nil => rfl
  | cons e l ih =>
    rw [count_cons, count_cons, count_cons, ih (fun e he => h e (List.mem_cons_of_mem _ he))]
    have := h e List.mem_cons_self
    by_cases hp : P e <;> by_cases hq : Q e <;> simp_all <;> omega

theorem count_eq_zero {γ : Type} {P : γ → Prop} {l : List γ} (h : ∀ e ∈ l, ¬ P e) : Spec.count P l = 0 := by
  unfold Spec.count
  rw [List.countP_eq_zero]
  intro e he; simpa using h e he

theorem exists_of_count_ne {γ : Type} {P : γ → Prop} {l : List γ} (h : Spec.count P l ≠ 0) : ∃ e ∈ l, P e := by
  by_contra hc; push Not at hc
  exact h (count_eq_zero hc)

theorem count_pos_of {γ : Type} {P : γ → Prop} {l : List γ} {e : γ} (he : e ∈ l) (h : P e) : 0 < Spec.count P l := by
  unfold Spec.count
  rw [List.countP_pos_iff]
  exact ⟨e, he, by simpa using h⟩

theorem count_le_one {γ : Type} {P : γ → Prop} {l : List γ} (hn : l.Nodup)
    (h : ∀ e ∈ l, ∀ f ∈ l, P e → P f → e = f) : Spec.count P l ≤ 1 := by
  induction l with
  | nil => simp
  | cons a l ih =>
    rw [count_cons]
    rw [List.nodup_cons] at hn
    have := ih hn.2 (fun e he f hf => h e (List.mem_cons_of_mem _ he) f (List.mem_cons_of_mem _ hf))
    by_cases ha : P a
    · have : Spec.count P l = 0 := count_eq_zero (fun e he hp => hn.1 (by
        rw [h a List.mem_cons_self e (List.mem_cons_of_mem _ he) ha hp]; exact he))
      rw [this, if_pos ha]
    · rw [if_neg ha]; simpa using this

/-! ## Strictly convex polygons -/

/-- A strictly convex polygon in counter-clockwise order: at least three distinct vertices, every vertex strictly to the
left of every edge it is not an end of. -/
structure Spec.StrictConvex (l : List Pt) : Prop where
  three : 3 ≤ l.length
  nodup : l.Nodup
  left : ∀ e ∈ cyclicPairs l, ∀ z ∈ l, z ≠ e.1 → z ≠ e.2 → 0 < area2 e.1 e.2 z

/-- Points strictly to the left of all edges. -/
def Spec.leftOfAll (l : List Pt) : Set Pt := {z | ∀ e ∈ cyclicPairs l, 0 < area2 e.1 e.2 z}

/-- The closed outline: the points of all edges. -/
def Spec.outline (l : List Pt) : Set Pt := {z | ∃ e ∈ cyclicPairs l, z ∈ segment ℝ e.1 e.2}

theorem area2_affine (a b z w : Pt) (s t : ℝ) (h : s + t = 1) :
    area2 a b (s • z + t • w) = s * area2 a b z + t * area2 a b w := by
  obtain rfl : s = 1 - t := by linarith
  simp only [area2, Prod.fst_add, Prod.snd_add, Prod.smul_fst, Prod.smul_snd, smul_eq_mul]; ring

theorem convex_left (a b : Pt) : Convex ℝ {z : Pt | 0 ≤ area2 a b z} := by
  intro z hz w hw s t hs ht h
  simp only [Set.mem_ofPred_eq] at hz hw ⊢
  rw [area2_affine _ _ _ _ _ _ h]
  positivity

section
variable {l : List Pt} (H : StrictConvex l)
include H

theorem Spec.StrictConvex.weak {e : Pt × Pt} (he : e ∈ cyclicPairs l) {z : Pt} (hz : z ∈ l) : 0 ≤ area2 e.1 e.2 z := by
  by_cases h1 : z = e.1
  · rw [h1]; unfold area2; simp
  by_cases h2 : z = e.2
  · rw [h2]; unfold area2; rw [mul_comm, sub_self]
  exact (H.left e he z hz h1 h2).le

theorem Spec.StrictConvex.hull {e : Pt × Pt} (he : e ∈ cyclicPairs l) {z : Pt} (hz : z ∈ convexHull ℝ {w | w ∈ l}) :
    0 ≤ area2 e.1 e.2 z :=
  convexHull_min (fun _ hw => H.weak he hw) (convex_left e.1 e.2) hz

theorem Spec.StrictConvex.mem_of_zero {e : Pt × Pt} (he : e ∈ cyclicPairs l) {z : Pt} (hz : z ∈ l)
    (h : area2 e.1 e.2 z = 0) : z = e.1 ∨ z = e.2 := by
  by_contra hc; push Not at hc
  exact (H.left e he z hz hc.1 hc.2).ne' h

theorem Spec.StrictConvex.third (m n : Pt) : ∃ z ∈ l, z ≠ m ∧ z ≠ n := by
  classical
  by_contra hc; push Not at hc
  have hs : l.toFinset ⊆ {m, n} := by
    intro z hz
    rw [List.mem_toFinset] at hz
    by_cases h : z = m
    · simp [h]
    · simp [hc z hz h]
  have h1 := Finset.card_le_card hs
  rw [List.toFinset_card_of_nodup H.nodup] at h1
  have h2 : ({m, n} : Finset Pt).card ≤ 2 := Finset.card_le_two
  have := H.three
  omega

theorem Spec.StrictConvex.ne {e : Pt × Pt} (he : e ∈ cyclicPairs l) : e.1 ≠ e.2 := by
  intro h
  obtain ⟨z, hz, h1, h2⟩ := H.third e.1 e.2
  have := H.left e he z hz h1 h2
  rw [h] at this; simp [area2] at this

theorem Spec.StrictConvex.fst_inj {e f : Pt × Pt} (he : e ∈ cyclicPairs l) (hf : f ∈ cyclicPairs l) (h : e.1 = f.1) : e = f :=
  List.inj_on_of_nodup_map (by rw [map_fst_cyclicPairs]; exact H.nodup) he hf h

theorem Spec.StrictConvex.snd_inj {e f : Pt × Pt} (he : e ∈ cyclicPairs l) (hf : f ∈ cyclicPairs l) (h : e.2 = f.2) : e = f :=
  List.inj_on_of_nodup_map (by rw [map_snd_cyclicPairs]; exact List.nodup_rotate.mpr H.nodup) he hf h

theorem Spec.StrictConvex.nodup_pairs : (cyclicPairs l).Nodup :=
  List.Nodup.of_map _ (by rw [map_fst_cyclicPairs]; exact H.nodup)

/-- Neighbours of a vertex, and the turn there. -/
theorem Spec.StrictConvex.turn {m : Pt} (hm : m ∈ l) :
    ∃ k n, (k, m) ∈ cyclicPairs l ∧ (m, n) ∈ cyclicPairs l ∧ 0 < area2 k m n := by
  have h1 : m ∈ (cyclicPairs l).map Prod.fst := by rw [map_fst_cyclicPairs]; exact hm
  have h2 : m ∈ (cyclicPairs l).map Prod.snd := by rw [map_snd_cyclicPairs]; exact List.mem_rotate.mpr hm
  obtain ⟨⟨_, n⟩, he, rfl⟩ := List.mem_map.mp h1
  obtain ⟨⟨k, m'⟩, hf, hm'⟩ := List.mem_map.mp h2
  simp only at hm' he hf ⊢; subst hm'
  refine ⟨k, n, hf, he, H.left _ hf n (snd_mem_of_cyclicPairs he) ?_ (H.ne he).symm⟩
  rintro rfl
  obtain ⟨z, hz, z1, z2⟩ := H.third n m'
  have a1 := H.left _ hf z hz z1 z2
  have a2 := H.left _ he z hz z2 z1
  simp only at a1 a2
  rw [area2_swap] at a2
  linarith

theorem Spec.StrictConvex.above {p : Pt} (hp : p ∈ leftOfAll l) : ∃ z ∈ l, p.2 < z.2 := by
  classical
  by_contra hc; push Not at hc
  have hne : l.toFinset.Nonempty := by
    obtain ⟨z, hz, _⟩ := H.third 0 0
    exact ⟨z, List.mem_toFinset.mpr hz⟩
  obtain ⟨m, hm, hmax⟩ := l.toFinset.exists_max_image (fun z => z.2) hne
  rw [List.mem_toFinset] at hm
  obtain ⟨k, n, hk, hn, ht⟩ := H.turn hm
  have g1 := hmax k (List.mem_toFinset.mpr (fst_mem_of_cyclicPairs hk))
  have g2 := hmax n (List.mem_toFinset.mpr (snd_mem_of_cyclicPairs hn))
  have p1 := hp _ hk; have p2 := hp _ hn
  have hw := hc m hm
  simp only [area2] at g1 g2 p1 p2 ht
  have key : (n.2 - m.2) * ((m.1 - k.1) * (p.2 - m.2) - (m.2 - k.2) * (p.1 - m.1))
      - (m.2 - k.2) * ((n.1 - m.1) * (p.2 - m.2) - (n.2 - m.2) * (p.1 - m.1)) =
      (p.2 - m.2) * ((m.1 - k.1) * (n.2 - k.2) - (m.2 - k.2) * (n.1 - k.1)) := by ring
  have p1' : 0 < (m.1 - k.1) * (p.2 - m.2) - (m.2 - k.2) * (p.1 - m.1) := by linarith
  have e1 := mul_nonneg (sub_nonneg.mpr hw) ht.le
  have e2 := mul_nonneg (sub_nonneg.mpr g2) p1'.le
  have e3 := mul_nonneg (sub_nonneg.mpr g1) p2.le
  have z1 : (m.2 - n.2) * ((m.1 - k.1) * (p.2 - m.2) - (m.2 - k.2) * (p.1 - m.1)) = 0 := by nlinarith
  have z2 : (m.2 - k.2) * ((n.1 - m.1) * (p.2 - m.2) - (n.2 - m.2) * (p.1 - m.1)) = 0 := by nlinarith
  have y1 := (mul_eq_zero.mp z1).resolve_right p1'.ne'
  have y2 := (mul_eq_zero.mp z2).resolve_right p2.ne'
  have : (m.1 - k.1) * (n.2 - k.2) - (m.2 - k.2) * (n.1 - k.1) = 0 := by
    rw [y2, show n.2 - k.2 = 0 by linarith]; ring
  linarith

theorem Spec.StrictConvex.below {p : Pt} (hp : p ∈ leftOfAll l) : ∃ z ∈ l, z.2 ≤ p.2 := by
  classical
  by_contra hc; push Not at hc
  have hne : l.toFinset.Nonempty := by
    obtain ⟨z, hz, _⟩ := H.third 0 0
    exact ⟨z, List.mem_toFinset.mpr hz⟩
  obtain ⟨m, hm, hmin⟩ := l.toFinset.exists_min_image (fun z => z.2) hne
  rw [List.mem_toFinset] at hm
  obtain ⟨k, n, hk, hn, ht⟩ := H.turn hm
  have g1 := hmin k (List.mem_toFinset.mpr (fst_mem_of_cyclicPairs hk))
  have g2 := hmin n (List.mem_toFinset.mpr (snd_mem_of_cyclicPairs hn))
  have p1 := hp _ hk; have p2 := hp _ hn
  have hw := hc m hm
  simp only [area2] at g1 g2 p1 p2 ht
  have key : (n.2 - m.2) * ((m.1 - k.1) * (p.2 - m.2) - (m.2 - k.2) * (p.1 - m.1))
      - (m.2 - k.2) * ((n.1 - m.1) * (p.2 - m.2) - (n.2 - m.2) * (p.1 - m.1)) =
      (p.2 - m.2) * ((m.1 - k.1) * (n.2 - k.2) - (m.2 - k.2) * (n.1 - k.1)) := by ring
  have p1' : 0 < (m.1 - k.1) * (p.2 - m.2) - (m.2 - k.2) * (p.1 - m.1) := by linarith
  have e1 := mul_pos (sub_pos.mpr hw) ht
  have e2 := mul_nonneg (sub_nonneg.mpr g2) p1'.le
  have e3 := mul_nonneg (sub_nonneg.mpr g1) p2.le
  nlinarith

end

theorem exists_up_chain (L : List Pt) (y : ℝ) (a : Pt) (ha : a.2 ≤ y) (h : ∃ w ∈ L, y < w.2) :
    ∃ e ∈ chainPairs (a :: L), e.1.2 ≤ y ∧ y < e.2.2 := by
  induction L generalizing a with
  | nil => simp at h
  | cons b L ih =>
    by_cases hb : y < b.2
    · exact ⟨(a, b), by simp, ha, hb⟩
    · have h' : ∃ w ∈ L, y < w.2 := by
        obtain ⟨w, hw, h⟩ := h
        rcases List.mem_cons.mp hw with rfl | hw
        · exact absurd h hb
        · exact ⟨w, hw, h⟩
      obtain ⟨e, he, h⟩ := ih b (not_lt.mp hb) h'
      exact ⟨e, by rw [chainPairs_cons_cons]; exact List.mem_cons_of_mem _ he, h⟩

theorem exists_up {l : List Pt} {y : ℝ} (h1 : ∃ z ∈ l, z.2 ≤ y) (h2 : ∃ z ∈ l, y < z.2) :
    ∃ e ∈ cyclicPairs l, e.1.2 ≤ y ∧ y < e.2.2 := by
  obtain ⟨z, hz, hzy⟩ := h1
  obtain ⟨s, t, rfl⟩ := List.append_of_mem hz
  have hr : (s ++ z :: t).rotate s.length = z :: t ++ s := List.rotate_append_length_eq _ _
  have hp := cyclicPairs_rotate_perm (s ++ z :: t) s.length
  rw [hr, List.cons_append, cyclicPairs_eq_chain] at hp
  obtain ⟨w, hw, hwy⟩ := h2
  obtain ⟨e, he, h⟩ := exists_up_chain (t ++ s ++ [z]) y z hzy ⟨w, by
    simp only [List.mem_append, List.mem_cons] at hw ⊢; tauto, hwy⟩
  exact ⟨e, hp.subset he, h⟩

theorem exists_down {l : List Pt} {y : ℝ} (h : ∃ e ∈ cyclicPairs l, e.1.2 ≤ y ∧ y < e.2.2) :
    ∃ e ∈ cyclicPairs l, e.2.2 ≤ y ∧ y < e.1.2 := by
  obtain ⟨e, he, hy⟩ := h
  have : 0 < Spec.count (fun e : Pt × Pt => e.1.2 ≤ y ∧ y < e.2.2) (cyclicPairs l) := count_pos_of he hy
  rw [up_eq_down] at this
  exact exists_of_count_ne this.ne'

theorem exists_up_of_down {l : List Pt} {y : ℝ} (h : ∃ e ∈ cyclicPairs l, e.2.2 ≤ y ∧ y < e.1.2) :
    ∃ e ∈ cyclicPairs l, e.1.2 ≤ y ∧ y < e.2.2 := by
  obtain ⟨e, he, hy⟩ := h
  have : 0 < Spec.count (fun e : Pt × Pt => e.2.2 ≤ y ∧ y < e.1.2) (cyclicPairs l) := count_pos_of he hy
  rw [← up_eq_down] at this
  exact exists_of_count_ne this.ne'

theorem outline_subset_hull (l : List Pt) : outline l ⊆ convexHull ℝ {w | w ∈ l} := by
  rintro z ⟨e, he, hz⟩
  have h1 : e.1 ∈ ({w | w ∈ l} : Set Pt) := fst_mem_of_cyclicPairs he
  have h2 : e.2 ∈ ({w | w ∈ l} : Set Pt) := snd_mem_of_cyclicPairs he
  exact segment_subset_convexHull h1 h2 hz

/-- The point of an upward edge at a height, as a combination of the ends. -/
theorem up_point {a b : Pt} {y : ℝ} (h1 : a.2 ≤ y) (h2 : y < b.2) : ∃ x t : ℝ, 0 ≤ t ∧ t < 1 ∧ (x, y) ∈ segment ℝ a b ∧
    ((x, y) : Pt) = (1 - t) • a + t • b ∧ (t = 0 ↔ a.2 = y) ∧ ∀ p : Pt, p.2 = y → area2 a b p = (b.2 - a.2) * (x - p.1) := by
  have hpos : 0 < b.2 - a.2 := by linarith
  set t := (y - a.2) / (b.2 - a.2) with ht
  have t0 : 0 ≤ t := div_nonneg (by linarith) hpos.le
  have t1 : t < 1 := (div_lt_one hpos).mpr (by linarith)
  have hty : t * (b.2 - a.2) = y - a.2 := by rw [ht]; field_simp
  refine ⟨a.1 + t * (b.1 - a.1), t, t0, t1, ?_, ?_, ?_, ?_⟩
  · exact mem_seg.mpr ⟨t, t0, t1.le, rfl, by simp only; linarith⟩
  · refine Prod.ext ?_ ?_
    · simp only [Prod.fst_add, Prod.smul_fst, smul_eq_mul]; ring
    · simp only [Prod.snd_add, Prod.smul_snd, smul_eq_mul]; linarith
  · constructor
    · intro h; rw [h, zero_mul] at hty; linarith
    · intro h; rw [ht, h, sub_self, zero_div]
  · rintro p rfl
    unfold area2
    linear_combination (-(b.1 - a.1)) * hty

section
variable {l : List Pt} (H : StrictConvex l)
include H

theorem Spec.StrictConvex.up_unique {y : ℝ} {e f : Pt × Pt} (he : e ∈ cyclicPairs l) (hf : f ∈ cyclicPairs l)
    (ue : e.1.2 ≤ y ∧ y < e.2.2) (uf : f.1.2 ≤ y ∧ y < f.2.2) : e = f := by
  obtain ⟨xe, te, te0, te1, me, ce, _, ae⟩ := up_point ue.1 ue.2
  obtain ⟨xf, tf, tf0, tf1, mf, cf, _, af⟩ := up_point uf.1 uf.2
  have h1 := H.hull he (outline_subset_hull l ⟨f, hf, mf⟩)
  have h2 := H.hull hf (outline_subset_hull l ⟨e, he, me⟩)
  rw [ae _ rfl] at h1
  rw [af _ rfl] at h2
  simp only at h1 h2
  have g1 : xf ≤ xe := by
    by_contra hc; push Not at hc
    nlinarith [mul_pos (show 0 < e.2.2 - e.1.2 by linarith [ue.1, ue.2]) (sub_pos.mpr hc)]
  have g2 : xe ≤ xf := by
    by_contra hc; push Not at hc
    nlinarith [mul_pos (show 0 < f.2.2 - f.1.2 by linarith [uf.1, uf.2]) (sub_pos.mpr hc)]
  have hz : area2 e.1 e.2 (xf, y) = 0 := by rw [ae _ rfl]; simp only; rw [le_antisymm g1 g2]; ring
  rw [cf, area2_affine _ _ _ _ _ _ (by ring)] at hz
  have w1 := H.weak he (fst_mem_of_cyclicPairs hf)
  have w2 := H.weak he (snd_mem_of_cyclicPairs hf)
  have hz1 : area2 e.1 e.2 f.1 = 0 := by
    have := mul_nonneg tf0 w2
    have := mul_nonneg (sub_nonneg.mpr tf1.le) w1
    have h : (1 - tf) * area2 e.1 e.2 f.1 = 0 := by linarith
    exact (mul_eq_zero.mp h).resolve_left (by linarith)
  rcases H.mem_of_zero he (fst_mem_of_cyclicPairs hf) hz1 with h | h
  · exact H.fst_inj he hf h.symm
  · rw [h] at uf; linarith [uf.1, ue.2]

theorem Spec.StrictConvex.down_unique {y : ℝ} {e f : Pt × Pt} (he : e ∈ cyclicPairs l) (hf : f ∈ cyclicPairs l)
    (ue : e.2.2 ≤ y ∧ y < e.1.2) (uf : f.2.2 ≤ y ∧ y < f.1.2) : e = f := by
  obtain ⟨xe, te, te0, te1, me, ce, _, ae⟩ := up_point ue.1 ue.2
  obtain ⟨xf, tf, tf0, tf1, mf, cf, _, af⟩ := up_point uf.1 uf.2
  rw [segment_symm] at me mf
  have h1 := H.hull he (outline_subset_hull l ⟨f, hf, mf⟩)
  have h2 := H.hull hf (outline_subset_hull l ⟨e, he, me⟩)
  rw [area2_swap, ae _ rfl] at h1
  rw [area2_swap, af _ rfl] at h2
  simp only at h1 h2
  have g1 : xe ≤ xf := by
    by_contra hc; push Not at hc
    nlinarith [mul_pos (show 0 < e.1.2 - e.2.2 by linarith [ue.1, ue.2]) (sub_pos.mpr hc)]
  have g2 : xf ≤ xe := by
    by_contra hc; push Not at hc
    nlinarith [mul_pos (show 0 < f.1.2 - f.2.2 by linarith [uf.1, uf.2]) (sub_pos.mpr hc)]
  have hz : area2 e.1 e.2 (xf, y) = 0 := by rw [area2_swap, ae _ rfl]; simp only; rw [le_antisymm g1 g2]; ring
  rw [cf, area2_affine _ _ _ _ _ _ (by ring)] at hz
  have w1 := H.weak he (fst_mem_of_cyclicPairs hf)
  have w2 := H.weak he (snd_mem_of_cyclicPairs hf)
  have hz1 : area2 e.1 e.2 f.2 = 0 := by
    have := mul_nonneg tf0 w1
    have := mul_nonneg (sub_nonneg.mpr tf1.le) w2
    have h : (1 - tf) * area2 e.1 e.2 f.2 = 0 := by linarith
    exact (mul_eq_zero.mp h).resolve_left (by linarith)
  rcases H.mem_of_zero he (snd_mem_of_cyclicPairs hf) hz1 with h | h
  · rw [h] at uf; linarith [uf.1, ue.2]
  · exact H.snd_inj he hf h.symm

theorem Spec.StrictConvex.count_split (p : Pt) :
    Spec.count (fun e : Pt × Pt => Crosses p e.1 e.2) (cyclicPairs l) =
    Spec.count (fun e : Pt × Pt => (e.1.2 ≤ p.2 ∧ p.2 < e.2.2) ∧ 0 ≤ area2 e.1 e.2 p) (cyclicPairs l) +
    Spec.count (fun e : Pt × Pt => (e.2.2 ≤ p.2 ∧ p.2 < e.1.2) ∧ area2 e.1 e.2 p ≤ 0) (cyclicPairs l) ∧
    Spec.count (fun e : Pt × Pt => (e.1.2 ≤ p.2 ∧ p.2 < e.2.2) ∧ 0 ≤ area2 e.1 e.2 p) (cyclicPairs l) ≤ 1 ∧
    Spec.count (fun e : Pt × Pt => (e.2.2 ≤ p.2 ∧ p.2 < e.1.2) ∧ area2 e.1 e.2 p ≤ 0) (cyclicPairs l) ≤ 1 := by
  refine ⟨?_, ?_, ?_⟩
  · rw [← count_or _ (by rintro e _ ⟨h1, h2⟩; linarith [h1.1.1, h2.1.2])]
    apply count_congr
    intro e _
    rw [crosses_iff]; tauto
  · exact count_le_one H.nodup_pairs (fun e he f hf pe pf => H.up_unique he hf pe.1 pf.1)
  · exact count_le_one H.nodup_pairs (fun e he f hf pe pf => H.down_unique he hf pe.1 pf.1)

/-- Even-odd rule for a strictly convex polygon: a point off the outline is crossed oddly exactly when it is strictly to
the left of every edge. -/
theorem Spec.StrictConvex.odd_iff {p : Pt} (hp : p ∉ outline l) :
    Odd (Spec.count (fun e : Pt × Pt => Crosses p e.1 e.2) (cyclicPairs l)) ↔ p ∈ leftOfAll l := by
  obtain ⟨hs, hu1, hd1⟩ := H.count_split p
  rw [hs]
  constructor
  · intro hodd
    have key : ∃ u ∈ cyclicPairs l, ∃ w ∈ cyclicPairs l, (u.1.2 ≤ p.2 ∧ p.2 < u.2.2) ∧ (w.2.2 ≤ p.2 ∧ p.2 < w.1.2) ∧
        0 ≤ area2 u.1 u.2 p ∧ 0 < area2 w.1 w.2 p := by
      by_cases hu : ∃ u ∈ cyclicPairs l, (u.1.2 ≤ p.2 ∧ p.2 < u.2.2) ∧ 0 ≤ area2 u.1 u.2 p
      · obtain ⟨u, um, uu, ua⟩ := hu
        have c1 := count_pos_of (P := fun e : Pt × Pt => (e.1.2 ≤ p.2 ∧ p.2 < e.2.2) ∧ 0 ≤ area2 e.1 e.2 p) um ⟨uu, ua⟩
        obtain ⟨w, wm, wd⟩ := exists_down ⟨u, um, uu⟩
        refine ⟨u, um, w, wm, uu, wd, ua, ?_⟩
        by_contra hc
        have c2 := count_pos_of (P := fun e : Pt × Pt => (e.2.2 ≤ p.2 ∧ p.2 < e.1.2) ∧ area2 e.1 e.2 p ≤ 0) wm
          ⟨wd, not_lt.mp hc⟩
        rw [le_antisymm hu1 c1, le_antisymm hd1 c2] at hodd
        exact absurd hodd (by decide)
      · exfalso
        have c1 : Spec.count (fun e : Pt × Pt => (e.1.2 ≤ p.2 ∧ p.2 < e.2.2) ∧ 0 ≤ area2 e.1 e.2 p)
            (cyclicPairs l) = 0 := count_eq_zero (fun e he h => hu ⟨e, he, h⟩)
        have c2 : Spec.count (fun e : Pt × Pt => (e.2.2 ≤ p.2 ∧ p.2 < e.1.2) ∧ area2 e.1 e.2 p ≤ 0)
            (cyclicPairs l) ≠ 0 := by
          intro h; rw [c1, h] at hodd; exact absurd hodd (by decide)
        obtain ⟨w, wm, wd, wa⟩ := exists_of_count_ne c2
        obtain ⟨u, um, uu⟩ := exists_up_of_down ⟨w, wm, wd⟩
        have ua : area2 u.1 u.2 p < 0 := not_le.mp (fun h => hu ⟨u, um, uu, h⟩)
        obtain ⟨xu, _, _, _, mu, _, _, au⟩ := up_point uu.1 uu.2
        obtain ⟨xw, _, _, _, mw, _, _, aw⟩ := up_point wd.1 wd.2
        rw [segment_symm] at mw
        have h1 := H.hull um (outline_subset_hull l ⟨w, wm, mw⟩)
        rw [au (xw, p.2) rfl] at h1
        rw [au p rfl] at ua
        rw [area2_swap, aw p rfl] at wa
        simp only at h1
        have q1 : 0 < u.2.2 - u.1.2 := by linarith [uu.1, uu.2]
        have q2 : 0 < w.1.2 - w.2.2 := by linarith [wd.1, wd.2]
        have r1 : 0 ≤ xu - xw := nonneg_of_mul_nonneg_right h1 q1
        have r2 : 0 ≤ xw - p.1 := nonneg_of_mul_nonneg_right (by linarith) q2
        nlinarith
    obtain ⟨u, um, w, wm, uu, wd, ua, wa⟩ := key
    obtain ⟨xu, tu, tu0, tu1, mu, cu, zu, au⟩ := up_point uu.1 uu.2
    obtain ⟨xw, tw, tw0, tw1, mw, cw, zw, aw⟩ := up_point wd.1 wd.2
    rw [au _ rfl] at ua
    rw [area2_swap, aw _ rfl] at wa
    have q1 : 0 < u.2.2 - u.1.2 := by linarith [uu.1, uu.2]
    have q2 : 0 < w.1.2 - w.2.2 := by linarith [wd.1, wd.2]
    have r1 : p.1 ≤ xu := sub_nonneg.mp (nonneg_of_mul_nonneg_right ua q1)
    have r1' : p.1 < xu := by
      refine lt_of_le_of_ne r1 (fun h => hp ⟨u, um, ?_⟩)
      rw [show p = (xu, p.2) from Prod.ext h rfl]; exact mu
    have r2 : xw < p.1 := by
      by_contra hc; push Not at hc
      nlinarith [mul_nonneg q2.le (sub_nonneg.mpr hc)]
    rw [segment_symm] at mw
    intro e he
    have hXu := H.hull he (outline_subset_hull l ⟨u, um, mu⟩)
    have hXw := H.hull he (outline_subset_hull l ⟨w, wm, mw⟩)
    have hlin : (xu - xw) * area2 e.1 e.2 p = (p.1 - xw) * area2 e.1 e.2 (xu, p.2) + (xu - p.1) * area2 e.1 e.2 (xw, p.2) := by
      unfold area2; ring
    have hge : 0 ≤ area2 e.1 e.2 p := by
      have : 0 ≤ (xu - xw) * area2 e.1 e.2 p := by
        rw [hlin]
        exact add_nonneg (mul_nonneg (by linarith) hXu) (mul_nonneg (by linarith) hXw)
      exact nonneg_of_mul_nonneg_right this (by linarith)
    refine lt_of_le_of_ne hge (fun h0 => ?_)
    rw [← h0, mul_zero] at hlin
    have k1 := mul_nonneg (show 0 ≤ p.1 - xw by linarith) hXu
    have k2 := mul_nonneg (show 0 ≤ xu - p.1 by linarith) hXw
    have Z1 : area2 e.1 e.2 (xu, p.2) = 0 :=
      (mul_eq_zero.mp (show (p.1 - xw) * area2 e.1 e.2 (xu, p.2) = 0 by linarith)).resolve_left (by linarith)
    have Z2 : area2 e.1 e.2 (xw, p.2) = 0 :=
      (mul_eq_zero.mp (show (xu - p.1) * area2 e.1 e.2 (xw, p.2) = 0 by linarith)).resolve_left (by linarith)
    have hhor : e.1.2 = e.2.2 := by
      have : (xu - xw) * (e.2.2 - e.1.2) = 0 := by
        unfold area2 at Z1 Z2; simp only at Z1 Z2; linarith
      have := (mul_eq_zero.mp this).resolve_left (by linarith)
      linarith
    have S1 : ((xu, p.2) : Pt) = e.1 ∨ ((xu, p.2) : Pt) = e.2 := by
      have Z1' := Z1
      rw [cu, area2_affine _ _ _ _ _ _ (by ring)] at Z1'
      have w1 := H.weak he (fst_mem_of_cyclicPairs um)
      have w2 := H.weak he (snd_mem_of_cyclicPairs um)
      have hz1 : area2 e.1 e.2 u.1 = 0 := by
        have := mul_nonneg tu0 w2
        have := mul_nonneg (sub_nonneg.mpr tu1.le) w1
        exact (mul_eq_zero.mp (show (1 - tu) * area2 e.1 e.2 u.1 = 0 by linarith)).resolve_left (by linarith)
      have hpe : p.2 = e.1.2 := by
        have hne : e.2.1 - e.1.1 ≠ 0 := fun h => H.ne he (Prod.ext (by linarith) hhor)
        have : (e.2.1 - e.1.1) * (p.2 - e.1.2) = 0 := by
          unfold area2 at Z1; simp only at Z1; rw [← hhor] at Z1; linarith
        linarith [(mul_eq_zero.mp this).resolve_left hne]
      have hm := H.mem_of_zero he (fst_mem_of_cyclicPairs um) hz1
      have : u.1.2 = p.2 := by
        rcases hm with h | h
        · rw [h, hpe]
        · rw [h, hpe, hhor]
      have ht : tu = 0 := zu.mpr this
      rw [ht] at cu
      simp only [sub_zero, one_smul, zero_smul, add_zero] at cu
      rw [cu]; exact hm
    have S2 : ((xw, p.2) : Pt) = e.1 ∨ ((xw, p.2) : Pt) = e.2 := by
      have Z2' := Z2
      rw [cw, area2_affine _ _ _ _ _ _ (by ring)] at Z2'
      have w1 := H.weak he (fst_mem_of_cyclicPairs wm)
      have w2 := H.weak he (snd_mem_of_cyclicPairs wm)
      have hz1 : area2 e.1 e.2 w.2 = 0 := by
        have := mul_nonneg tw0 w1
        have := mul_nonneg (sub_nonneg.mpr tw1.le) w2
        exact (mul_eq_zero.mp (show (1 - tw) * area2 e.1 e.2 w.2 = 0 by linarith)).resolve_left (by linarith)
      have hpe : p.2 = e.1.2 := by
        have hne : e.2.1 - e.1.1 ≠ 0 := fun h => H.ne he (Prod.ext (by linarith) hhor)
        have : (e.2.1 - e.1.1) * (p.2 - e.1.2) = 0 := by
          unfold area2 at Z1; simp only at Z1; rw [← hhor] at Z1; linarith
        linarith [(mul_eq_zero.mp this).resolve_left hne]
      have hm := H.mem_of_zero he (snd_mem_of_cyclicPairs wm) hz1
      have : w.2.2 = p.2 := by
        rcases hm with h | h
        · rw [h, hpe]
        · rw [h, hpe, hhor]
      have ht : tw = 0 := zw.mpr this
      rw [ht] at cw
      simp only [sub_zero, one_smul, zero_smul, add_zero] at cw
      rw [cw]; exact hm
    have hxx : xw < xu := r2.trans r1'
    have hin : p ∈ segment ℝ ((xw, p.2) : Pt) (xu, p.2) := by
      refine mem_seg.mpr ⟨(p.1 - xw) / (xu - xw), div_nonneg (by linarith) (by linarith),
        (div_le_one (by linarith)).mpr (by linarith), ?_, ?_⟩
      · have : xu - xw ≠ 0 := by linarith
        simp only; field_simp; ring
      · simp
    apply hp
    refine ⟨e, he, ?_⟩
    rcases S1 with h | h <;> rcases S2 with h' | h'
    · have := congrArg Prod.fst (h.trans h'.symm); simp only at this; linarith
    · rw [h, h', segment_symm] at hin; exact hin
    · rw [h, h'] at hin; exact hin
    · have := congrArg Prod.fst (h.trans h'.symm); simp only at this; linarith
  · intro hp'
    obtain ⟨u, um, uu⟩ := exists_up (H.below hp') (H.above hp')
    have c1 := count_pos_of (P := fun e : Pt × Pt => (e.1.2 ≤ p.2 ∧ p.2 < e.2.2) ∧ 0 ≤ area2 e.1 e.2 p) um
      ⟨uu, (hp' u um).le⟩
    have c2 : Spec.count (fun e : Pt × Pt => (e.2.2 ≤ p.2 ∧ p.2 < e.1.2) ∧ area2 e.1 e.2 p ≤ 0) (cyclicPairs l) = 0 :=
      count_eq_zero (fun e he h => absurd (hp' e he) (not_lt.mpr h.2))
    rw [le_antisymm hu1 c1, c2]
    decide

theorem Spec.StrictConvex.leftOfAll_disjoint {p : Pt} (h : p ∈ leftOfAll l) : p ∉ outline l := by
  rintro ⟨e, he, hz⟩
  have := h e he
  obtain ⟨t, _, _, hx, hy⟩ := mem_seg.mp hz
  unfold area2 at this
  rw [hx, hy] at this
  have h0 : (e.2.1 - e.1.1) * (e.1.2 + t * (e.2.2 - e.1.2) - e.1.2) -
    (e.2.2 - e.1.2) * (e.1.1 + t * (e.2.1 - e.1.1) - e.1.1) = 0 := by ring
  linarith

theorem Spec.StrictConvex.leftOfAll_subset_hull : leftOfAll l ⊆ convexHull ℝ {w | w ∈ l} := by
  intro p hp
  obtain ⟨u, um, uu⟩ := exists_up (H.below hp) (H.above hp)
  obtain ⟨w, wm, wd⟩ := exists_down ⟨u, um, uu⟩
  obtain ⟨xu, tu, tu0, tu1, mu, cu, zu, au⟩ := up_point uu.1 uu.2
  obtain ⟨xw, tw, tw0, tw1, mw, cw, zw, aw⟩ := up_point wd.1 wd.2
  have ua := hp u um
  have wa := hp w wm
  rw [au p rfl] at ua
  rw [area2_swap, aw p rfl] at wa
  have q1 : 0 < u.2.2 - u.1.2 := by linarith [uu.1, uu.2]
  have q2 : 0 < w.1.2 - w.2.2 := by linarith [wd.1, wd.2]
  have r1 : 0 < xu - p.1 := (pos_iff_pos_of_mul_pos ua).mp q1
  have r2 : xw < p.1 := by
    by_contra hc; push Not at hc
    nlinarith [mul_nonneg q2.le (sub_nonneg.mpr hc)]
  rw [segment_symm] at mw
  have hin : p ∈ segment ℝ ((xw, p.2) : Pt) (xu, p.2) := by
    refine mem_seg.mpr ⟨(p.1 - xw) / (xu - xw), div_nonneg (by linarith) (by linarith),
      (div_le_one (by linarith)).mpr (by linarith), ?_, ?_⟩
    · have : xu - xw ≠ 0 := by linarith
      simp only; field_simp; ring
    · simp
  exact (convex_convexHull ℝ _).segment_subset (outline_subset_hull l ⟨w, wm, mw⟩) (outline_subset_hull l ⟨u, um, mu⟩) hin

/-- For a strictly convex polygon the points strictly to the left of all edges are the interior of the convex hull. -/
theorem Spec.StrictConvex.leftOfAll_eq : leftOfAll l = interior (convexHull ℝ {w | w ∈ l}) := by
  apply Set.Subset.antisymm
  · refine interior_maximal H.leftOfAll_subset_hull ?_
    have : leftOfAll l = ⋂ e ∈ {e | e ∈ cyclicPairs l}, {z : Pt | 0 < area2 e.1 e.2 z} := by
      ext z; simp [leftOfAll]
    rw [this]
    refine (List.finite_toSet _).isOpen_biInter (fun e _ => ?_)
    refine isOpen_lt continuous_const ?_
    unfold area2; fun_prop
  · intro z hz e he
    rw [mem_interior_iff_mem_nhds] at hz
    set n : Pt := (-(e.2.2 - e.1.2), e.2.1 - e.1.1) with hn
    have ht : Filter.Tendsto (fun δ : ℝ => z - δ • n) (nhds 0) (nhds (z - (0:ℝ) • n)) :=
      (Continuous.sub continuous_const (continuous_id.smul continuous_const)).tendsto 0
    rw [zero_smul, sub_zero] at ht
    have h1 := (ht.eventually hz).filter_mono (nhdsWithin_le_nhds (s := Set.Ioi 0))
    obtain ⟨δ, hδ, hpos⟩ := (h1.and self_mem_nhdsWithin).exists
    have h2 := H.hull he hδ
    have h3 : area2 e.1 e.2 (z - δ • n) = area2 e.1 e.2 z - δ * ((e.2.1 - e.1.1) ^ 2 + (e.2.2 - e.1.2) ^ 2) := by
      simp only [area2, hn, Prod.fst_sub, Prod.snd_sub, Prod.smul_fst, Prod.smul_snd, smul_eq_mul]; ring
    have h4 := mul_pos (show 0 < δ from hpos) (dir_pos (H.ne he))
    linarith

end

end PyrusGeom
