import Verif.Props.ConvexHull
import Mathlib.Analysis.Convex.Combination

/-! # Property C113: the Graham scan -/

namespace PyrusGeom
open Spec

namespace Hull

/-! ## Clockwise chains -/

/-- Any three points of the list, in list order, turn clockwise. -/
def Cw3 (l : List Pt) : Prop := ∀ a b c, [a, b, c].Sublist l → area2 a b c < 0

/-- Any three points of the list, in list order, turn counter-clockwise. -/
def Ccw3 (l : List Pt) : Prop := ∀ a b c, [a, b, c].Sublist l → 0 < area2 a b c

theorem Cw3.reverse {l : List Pt} (h : Cw3 l) : Ccw3 l.reverse := by
  intro a b c hs
  have := h c b a (by simpa using hs.reverse)
  have e : area2 c b a = -area2 a b c := by unfold area2; ring
  linarith

theorem pair_sublist_of_chain {α : Type} {l : List α} {e : α × α} (h : e ∈ chainPairs l) {z : α} (hz : z ∈ l)
    (h1 : z ≠ e.1) (h2 : z ≠ e.2) : [z, e.1, e.2].Sublist l ∨ [e.1, e.2, z].Sublist l := by
  induction l with
  | nil => simp at hz
  | cons a t ih =>
    cases t with
    | nil => simp at h
    | cons b t =>
      rw [chainPairs_cons_cons, List.mem_cons] at h
      rcases h with rfl | h
      · right
        have hz' : z ∈ t := by
          rcases List.mem_cons.mp hz with h | h
          · exact absurd h h1
          · rcases List.mem_cons.mp h with h | h
            · exact absurd h h2
            · exact h
        exact ((List.singleton_sublist.mpr hz').cons_cons b).cons_cons a
      · rcases List.mem_cons.mp hz with hza | hz
        · left
          subst hza
          refine List.Sublist.cons_cons z ?_
          clear ih h1 h2 hz
          revert h
          generalize b :: t = l
          intro h
          induction l with
          | nil => simp at h
          | cons c l ih =>
            cases l with
            | nil => simp at h
            | cons d l =>
              rw [chainPairs_cons_cons, List.mem_cons] at h
              rcases h with rfl | h
              · simp
              · exact (ih h).cons c
        · rcases ih h hz with h | h
          · exact Or.inl (h.cons a)
          · exact Or.inr (h.cons a)

/-- A list of at least three points all of whose triples turn left is a strictly convex polygon. -/
theorem Ccw3.strictConvex {l : List Pt} (h : Ccw3 l) (h3 : 3 ≤ l.length) (hn : l.Nodup) : StrictConvex l := by
  refine ⟨h3, hn, ?_⟩
  intro e he z hz h1 h2
  match l, h3 with
  | a :: t, h3 =>
    rw [cyclicPairs_eq_chain] at he
    rw [chain_snoc, List.mem_append] at he
    rcases he with he | he
    · rcases pair_sublist_of_chain he hz h1 h2 with hs | hs
      · have := h _ _ _ hs
        rwa [area2_rot] at this
      · exact h _ _ _ hs
    · rw [List.mem_singleton] at he
      subst he
      have hz' : z ∈ t := by
        rcases List.mem_cons.mp hz with h | h
        · exact absurd h h2
        · exact h
      have ht : t ≠ [] := List.ne_nil_of_mem hz'
      rw [List.getLast_cons ht] at h1 ⊢
      have hs : [a, z, t.getLast ht].Sublist (a :: t) := by
        refine List.Sublist.cons_cons a ?_
        rw [← List.dropLast_append_getLast ht] at hz'
        rcases List.mem_append.mp hz' with hz' | hz'
        · have := List.Sublist.append (List.singleton_sublist.mpr hz') (List.Sublist.refl [t.getLast ht])
          rwa [List.dropLast_append_getLast ht] at this
        · exact absurd (List.mem_singleton.mp hz') h1
      have := h _ _ _ hs
      simp only
      rw [area2_rot]
      exact this

/-- Turn at `b` continues to `d`. -/
theorem cw_step {o a b c d : Pt} (h1 : area2 o a b < 0) (h2 : area2 o b c < 0) (h3 : area2 o b d < 0)
    (h4 : area2 a b c < 0) (h5 : area2 b c d < 0) : area2 a b d < 0 := by
  have key : area2 o b c * area2 a b d = area2 o a b * area2 b c d + area2 o b d * area2 a b c := by
    unfold area2; ring
  by_contra hc
  push Not at hc
  nlinarith [mul_pos_of_neg_of_neg h1 h5, mul_pos_of_neg_of_neg h3 h4]

/-- Turns at `a` and `b` give the turn from an earlier `x`. -/
theorem cw_step' {o x a b p : Pt} (h1 : area2 o a b < 0) (h2 : area2 o x b < 0) (h3 : area2 o b p < 0)
    (h4 : area2 x a b < 0) (h5 : area2 a b p < 0) : area2 x b p < 0 := by
  have key : area2 o a b * area2 x b p = area2 o x b * area2 a b p + area2 o b p * area2 x a b := by
    unfold area2; ring
  by_contra hc
  push Not at hc
  nlinarith [mul_pos_of_neg_of_neg h2 h5, mul_pos_of_neg_of_neg h3 h4]

/-- A point behind a left turn lies in the triangle with the pivot. -/
theorem mem_triangle {o a b p : Pt} (h1 : area2 o a b < 0) (h2 : area2 o b p < 0) (h3 : 0 < area2 a b p) :
    b ∈ convexHull ℝ {o, a, p} := by
  have hs : area2 o a p < 0 := by
    have : area2 o a p = area2 o a b + area2 o b p - area2 a b p := by unfold area2; ring
    linarith
  have hmem : ∀ z ∈ ({o, a, p} : Set Pt), z ∈ convexHull ℝ ({o, a, p} : Set Pt) := fun z hz => subset_convexHull ℝ _ hz
  have hc := convex_convexHull ℝ ({o, a, p} : Set Pt)
  have hne := hs.ne
  have := hc.sum_mem (t := Finset.univ) (w := ![-area2 a b p / area2 o a p, area2 o b p / area2 o a p,
    area2 o a b / area2 o a p]) (z := ![o, a, p]) ?_ ?_ ?_
  · convert this using 1
    simp only [Fin.sum_univ_three, Matrix.cons_val_zero, Matrix.cons_val_one, Matrix.cons_val_two, Matrix.head_cons,
      Matrix.tail_cons]
    refine Prod.ext ?_ ?_ <;> simp <;> field_simp <;> unfold area2 <;> ring
  · intro i _
    fin_cases i
    · simp only [Fin.zero_eta, Matrix.cons_val_zero]
      exact div_nonneg_of_nonpos (by linarith) hs.le
    · simp only [Fin.mk_one, Matrix.cons_val_one]
      exact div_nonneg_of_nonpos h2.le hs.le
    · simp
      exact div_nonneg_of_nonpos h1.le hs.le
  · simp only [Fin.sum_univ_three, Matrix.cons_val_zero, Matrix.cons_val_one, Matrix.cons_val_two, Matrix.head_cons,
      Matrix.tail_cons]
    rw [← add_div, ← add_div, div_eq_one_iff_eq hne]
    unfold area2; ring
  · intro i _
    fin_cases i <;> apply hmem <;> simp

/-! ## The scan -/

theorem pyGet_nat {α : Type} (l : List α) (i : ℕ) (h : i < l.length) : pyGet l (i : ℤ) = .ok l[i] := by
  unfold pyGet
  have h0 : ¬ ((i : ℤ) < 0) := by omega
  simp only [h0, if_false, Int.toNat_natCast, List.getElem?_eq_getElem h]

theorem pySet_nat {α : Type} (l : List α) (i : ℕ) (a : α) (h : i < l.length) : pySet l (i : ℤ) a = .ok (l.set i a) := by
  unfold pySet
  have h0 : ¬ ((i : ℤ) < 0) := by omega
  have h1 : ¬ ((l.length : ℤ) ≤ (i : ℤ)) := by omega
  simp only [h0, if_false, Int.toNat_natCast, h1, or_self]

/-- The inner loop stops at the last position from which the turn to `p` is clockwise. -/
theorem grahamWhile_spec (vs : List (Vec ℝ)) (p : Vec ℝ) (h0 : 1 < vs.length)
    (hstop : isClockwise vs[0] vs[1] p = true) (t : ℕ) : ∀ (fuel : ℕ) (ht : t < vs.length), 1 ≤ t → t < fuel →
    ∃ (t' : ℕ) (h1 : 1 ≤ t') (h2 : t' ≤ t), grahamWhile vs p fuel (t : ℤ) = .ok (t' : ℤ) ∧
      isClockwise vs[t' - 1] vs[t'] p = true ∧
      ∀ j (hj : j ≤ t), t' < j → isClockwise vs[j - 1] vs[j] p = false := by
  induction t with
  | zero => intro fuel ht h; omega
  | succ t ih =>
    intro fuel ht _ hf
    obtain ⟨f, rfl⟩ : ∃ f, fuel = f + 1 := ⟨fuel - 1, by omega⟩
    have e1 : pyGet vs (((t + 1 : ℕ) : ℤ) - 1) = .ok vs[t] := by
      rw [show ((t + 1 : ℕ) : ℤ) - 1 = (t : ℕ) by push_cast; ring]
      exact pyGet_nat vs t (by omega)
    have e2 := pyGet_nat vs (t + 1) ht
    by_cases hc : isClockwise vs[t] vs[t + 1] p = true
    · refine ⟨t + 1, by omega, le_rfl, ?_, hc, fun j hj h => by omega⟩
      rw [grahamWhile]
      simp only [e1, e2, bind, Except.bind, hc, pure, Except.pure, if_true]
    · have ht1 : 1 ≤ t := by
        by_contra h
        obtain rfl : t = 0 := by omega
        exact hc hstop
      obtain ⟨t', h1, h2, h3, h4, h5⟩ := ih f (by omega) ht1 (by omega)
      refine ⟨t', h1, by omega, ?_, h4, ?_⟩
      · rw [grahamWhile]
        simp only [e1, e2, bind, Except.bind, hc]
        rw [show ((t + 1 : ℕ) : ℤ) - 1 = (t : ℕ) by push_cast; ring]
        exact h3
      · intro j hj hlt
        by_cases hjt : j = t + 1
        · subst hjt; simpa using hc
        · exact h5 j (by omega) hlt

/-- Any three elements of the list, in list order, turn clockwise. -/
def CwV (l : List (Vec ℝ)) : Prop := ∀ a b c, [a, b, c].Sublist l → area2 a.pt b.pt c.pt < 0

theorem CwV.map {l : List (Vec ℝ)} (h : CwV l) : Cw3 (l.map Vec.pt) := by
  intro a b c hs
  obtain ⟨l', h1, h2⟩ := List.sublist_map_iff.mp hs
  match l', h2 with
  | [x, y, z], h2 =>
    simp only [List.map_cons, List.map_nil, List.cons.injEq, and_true] at h2
    obtain ⟨rfl, rfl, rfl⟩ := h2
    exact h _ _ _ h1

theorem snoc_sublist {α : Type} {l r : List α} {y b : α} (h : (l ++ [y]).Sublist (r ++ [b])) :
    (l ++ [y]).Sublist r ∨ (y = b ∧ l.Sublist r) := by
  have := h.reverse
  simp only [List.reverse_append, List.reverse_cons, List.reverse_nil, List.nil_append, List.singleton_append] at this
  rcases List.sublist_cons_iff.mp this with h | ⟨r', h1, h2⟩
  · left; simpa using h.reverse
  · right
    simp only [List.cons.injEq] at h1
    obtain ⟨rfl, rfl⟩ := h1
    exact ⟨rfl, by simpa using h2.reverse⟩

theorem push_cw {o p a b : Vec ℝ} {L : List (Vec ℝ)}
    (hang : ∀ x y, [x, y].Sublist (L ++ [a, b] ++ [p]) → x ≠ o → area2 o.pt x.pt y.pt < 0)
    (ho : ∀ x y, [x, y].Sublist (L ++ [a, b] ++ [p]) → y ≠ o)
    (hL : CwV (L ++ [a, b])) (hp : area2 a.pt b.pt p.pt < 0) : CwV (L ++ [a, b] ++ [p]) := by
  have up : ∀ l : List (Vec ℝ), l.Sublist (L ++ [a, b]) → (l ++ [p]).Sublist (L ++ [a, b] ++ [p]) :=
    fun l h => h.append (List.Sublist.refl _)
  have lift : ∀ l : List (Vec ℝ), l.Sublist (L ++ [a, b]) → l.Sublist (L ++ [a, b] ++ [p]) :=
    fun l h => h.trans (List.sublist_append_left _ _)
  have hab : (L ++ [a, b]) = (L ++ [a]) ++ [b] := by simp
  have hbo : b ≠ o := ho a b (lift _ (by simp))
  -- from any earlier point to `b`, then `p`
  have B : ∀ x, [x, b].Sublist (L ++ [a, b]) → x ∈ L ++ [a] → area2 x.pt b.pt p.pt < 0 := by
    intro x hx hxm
    have hbp := hang b p (up [b] (by simp)) hbo
    by_cases hxo : x = o
    · rw [hxo]; exact hbp
    rcases List.mem_append.mp hxm with hxL | hxa
    · have hao : a ≠ o := by
        refine ho x a (lift _ ?_)
        exact (List.singleton_sublist.mpr hxL).append (by simp : [a].Sublist [a, b])
      refine cw_step' (o := o.pt) (a := a.pt) (hang a b (lift _ (by simp)) hao) (hang x b (lift _ hx) hxo) hbp ?_ hp
      exact hL _ _ _ ((List.singleton_sublist.mpr hxL).append (List.Sublist.refl [a, b]))
    · rw [List.mem_singleton.mp hxa]; exact hp
  intro x y z hs
  have hs' : ([x, y] ++ [z]).Sublist (L ++ [a, b] ++ [p]) := hs
  rcases snoc_sublist hs' with h | ⟨rfl, h⟩
  · exact hL _ _ _ h
  · have hyo : y ≠ o := ho x y (lift _ h)
    have h' : ([x] ++ [y]).Sublist (L ++ [a] ++ [b]) := by rw [← hab]; exact h
    rcases snoc_sublist h' with h1 | ⟨rfl, h1⟩
    · by_cases hxo : x = o
      · rw [hxo]
        exact hang y z (up [y] ((by simp : [y].Sublist [x, y]).trans h)) hyo
      · have h3 : [x, y, b].Sublist (L ++ [a, b]) := by
          rw [hab]
          exact h1.append (List.Sublist.refl [b])
        have hyb : [y, b].Sublist (L ++ [a, b]) := (by simp : [y, b].Sublist [x, y, b]).trans h3
        refine cw_step (o := o.pt) (c := b.pt) (hang x y (lift _ h) hxo) (hang y b (lift _ hyb) hyo)
          (hang y z (up [y] ((by simp : [y].Sublist [x, y]).trans h)) hyo) (hL _ _ _ h3) (B y hyb ?_)
        exact h1.subset (by simp)
    · exact B x h (List.singleton_sublist.mp h1)

/-- Loop invariant after the points before index `i` of the sorted list `s` were processed. -/
structure ScanInv (o : Vec ℝ) (s : List (Vec ℝ)) (i : ℕ) (vs : List (Vec ℝ)) (t : ℕ) : Prop where
  len : vs.length = s.length
  one : 1 ≤ t
  lt : t < i
  rest : ∀ k, i ≤ k → vs[k]? = s[k]?
  zero : vs[0]? = some o
  first : vs[1]? = s[1]?
  sub : (vs.take (t + 1)).Sublist (s.take i)
  cw : CwV (vs.take (t + 1))
  hull : ∀ q ∈ s.take i, q.pt ∈ convexHull ℝ {z | z ∈ (vs.take (t + 1)).map Vec.pt}

/-- Every three different elements span a doubled area of at least EPSILON. -/
def GenPosV (s : List (Vec ℝ)) : Prop :=
  ∀ a ∈ s, ∀ b ∈ s, ∀ c ∈ s, a ≠ b → a ≠ c → b ≠ c → EPSILON ≤ |area2 a.pt b.pt c.pt|

theorem isClockwise_gp {a b c : Vec ℝ} (h : EPSILON ≤ |area2 a.pt b.pt c.pt|) :
    isClockwise a b c = true ↔ area2 a.pt b.pt c.pt < 0 := by
  have hE := EPSILON_pos
  unfold isClockwise
  simp only [Tri.dsa_real, num_real, Nat.cast_zero, Bool.or_eq_true, Bool.and_eq_true, decide_eq_true_eq]
  constructor
  · rintro (h1 | ⟨h1, -⟩)
    · exact h1
    · rcases abs_cases (area2 a.pt b.pt c.pt) with ⟨h2, h3⟩ | ⟨h2, h3⟩
      · linarith
      · exact h3
  · exact Or.inl

theorem angular {o : Vec ℝ} {r : List (Vec ℝ)} (hsort : r.Pairwise (fun a b => area2 o.pt a.pt b.pt < 0)) {x y : Vec ℝ}
    (h : [x, y].Sublist (o :: r)) (hx : x ≠ o) : area2 o.pt x.pt y.pt < 0 := by
  rcases List.sublist_cons_iff.mp h with h | ⟨r', h1, -⟩
  · have := hsort.sublist h
    rw [List.pairwise_cons] at this
    exact this.1 y (by simp)
  · simp only [List.cons.injEq] at h1
    exact absurd h1.1 hx

theorem second_ne {o : Vec ℝ} {r : List (Vec ℝ)} (hnd : (o :: r).Nodup) {x y : Vec ℝ}
    (h : [x, y].Sublist (o :: r)) : y ≠ o := by
  rintro rfl
  have hyr : y ∉ r := (List.nodup_cons.mp hnd).1
  rcases List.sublist_cons_iff.mp h with h | ⟨r', h1, h2⟩
  · exact hyr (h.subset (by simp))
  · simp only [List.cons.injEq] at h1
    obtain ⟨-, rfl⟩ := h1
    exact hyr (h2.subset (by simp))

theorem take_snoc {α : Type} (l : List α) (i : ℕ) (h : i < l.length) : l.take (i + 1) = l.take i ++ [l[i]] := by
  simp [List.take_append_getElem]

theorem take_two {α : Type} (l : List α) (j : ℕ) (h1 : 1 ≤ j) (h : j < l.length) :
    l.take (j + 1) = l.take (j - 1) ++ [l[j - 1], l[j]] := by
  obtain ⟨k, rfl⟩ : ∃ k, j = k + 1 := ⟨j - 1, by omega⟩
  rw [take_snoc l (k + 1) h, take_snoc l k (by omega), List.append_assoc]
  rfl

/-- One round of the loop keeps the invariant. -/
theorem scan_step {o : Vec ℝ} {r : List (Vec ℝ)} (hsort : r.Pairwise (fun a b => area2 o.pt a.pt b.pt < 0))
    (hgp : GenPosV (o :: r)) (hnd : (o :: r).Nodup) {i : ℕ} (h2 : 2 ≤ i) (hi : i < (o :: r).length)
    {vs : List (Vec ℝ)} {t : ℕ} (hI : ScanInv o (o :: r) i vs t) (is : List ℕ) :
    ∃ (vs' : List (Vec ℝ)) (t' : ℕ), grahamFor (i :: is) vs (t : ℤ) = grahamFor is vs' (t' : ℤ) ∧ ScanInv o (o :: r) (i + 1) vs' t' ∧
      vs'.Perm vs ∧ 2 ≤ t' := by
  set s := o :: r with hs
  have hlen := hI.len
  have hone := hI.one
  have hlt := hI.lt
  have hivs : i < vs.length := by omega
  set p := s[i] with hp
  have hpi : vs[i] = p := by
    have := hI.rest i le_rfl
    rw [List.getElem?_eq_getElem hivs, List.getElem?_eq_getElem hi] at this
    exact Option.some.inj this
  have hv0 : vs[0]'(by omega) = o := by
    have := hI.zero
    rw [List.getElem?_eq_getElem (by omega)] at this
    exact Option.some.inj this
  have hv1 : vs[1]'(by omega) = s[1]'(by omega) := by
    have := hI.first
    rw [List.getElem?_eq_getElem (by omega), List.getElem?_eq_getElem (by omega)] at this
    exact Option.some.inj this
  have htk : s.take (i + 1) = s.take i ++ [p] := take_snoc s i hi
  have hsub : (vs.take (t + 1) ++ [p]).Sublist s := by
    refine List.Sublist.trans ?_ (List.take_sublist (i + 1) s)
    rw [htk]
    exact hI.sub.append (List.Sublist.refl _)
  have hang : ∀ x y, [x, y].Sublist (vs.take (t + 1) ++ [p]) → x ≠ o → area2 o.pt x.pt y.pt < 0 :=
    fun x y h hx => angular hsort (h.trans hsub) hx
  have hne : ∀ x y, [x, y].Sublist (vs.take (t + 1) ++ [p]) → y ≠ o := fun x y h => second_ne hnd (h.trans hsub)
  -- adjacent elements of the chain and `p`
  have htrip : ∀ j (hj : j ≤ t), 1 ≤ j → [vs[j - 1]'(by omega), vs[j]'(by omega), p].Sublist (vs.take (t + 1) ++ [p]) := by
    intro j hj h1
    have e := take_two vs j h1 (by omega)
    refine List.Sublist.append (l₁ := [_, _]) ?_ (List.Sublist.refl [p])
    refine List.Sublist.trans ?_ (List.take_sublist_take_left (show j + 1 ≤ t + 1 by omega))
    rw [e]
    exact List.sublist_append_right _ _
  have hcw : ∀ j (hj : j ≤ t), 1 ≤ j → (isClockwise (vs[j - 1]'(by omega)) (vs[j]'(by omega)) p = true ↔
      area2 (vs[j - 1]'(by omega)).pt (vs[j]'(by omega)).pt p.pt < 0) ∧
      area2 (vs[j - 1]'(by omega)).pt (vs[j]'(by omega)).pt p.pt ≠ 0 := by
    intro j hj h1
    have hss := (htrip j hj h1).trans hsub
    have hnd3 := hnd.sublist hss
    simp only [List.nodup_cons, List.mem_cons, List.not_mem_nil, or_false, not_or, not_false_eq_true, List.nodup_nil,
      and_true] at hnd3
    have hg := hgp _ (hss.subset (List.mem_cons_self)) _ (hss.subset (by simp)) _ (hss.subset (by simp))
      hnd3.1.1 hnd3.1.2 hnd3.2
    refine ⟨isClockwise_gp hg, ?_⟩
    intro h0
    rw [h0, abs_zero] at hg
    exact absurd EPSILON_pos (not_lt.mpr hg)
  have hstop : isClockwise (vs[0]'(by omega)) (vs[1]'(by omega)) p = true := by
    have := hcw 1 hone le_rfl
    rw [this.1]
    have h1 := htrip 1 hone le_rfl
    simp only [Nat.sub_self, hv0] at h1 ⊢
    exact hang _ _ ((List.sublist_cons_self _ _).trans h1) (hne _ _ ((by simp : List.Sublist [o, vs[1]] _).trans h1))
  obtain ⟨t', ht1, ht2, hw, hcl, hout⟩ := grahamWhile_spec vs p (by omega) hstop t (2 * vs.length + 2) (by omega) hone
    (by omega)
  set vs' := (vs.set (t' + 1) p).set i (vs[t' + 1]'(by omega)) with hvs'
  have hstep : grahamFor (i :: is) vs (t : ℤ) = grahamFor is vs' ((t' + 1 : ℕ) : ℤ) := by
    rw [grahamFor]
    simp only [pyGet_nat vs i hivs, hpi, bind, Except.bind, hw]
    rw [show (t' : ℤ) + 1 = ((t' + 1 : ℕ) : ℤ) by push_cast; ring]
    simp only [pyGet_nat vs (t' + 1) (by omega), pySet_nat vs (t' + 1) p (by omega),
      pySet_nat (vs.set (t' + 1) p) i _ (by simpa using hivs)]
    rfl
  have hget : ∀ k, vs'[k]? = if k = i then vs[t' + 1]? else if k = t' + 1 then some p else vs[k]? := by
    intro k
    rw [hvs', List.getElem?_set, List.getElem?_set]
    simp only [List.length_set]
    rw [List.getElem?_eq_getElem (show t' + 1 < vs.length by omega)]
    by_cases hk : k = i
    · subst hk; simp [hivs]
    · rw [if_neg (fun h => hk h.symm), if_neg hk]
      by_cases hk2 : k = t' + 1
      · subst hk2; simp; omega
      · rw [if_neg (fun h => hk2 h.symm), if_neg hk2]
  have hbefore : ∀ k, k ≤ t' → vs'[k]? = vs[k]? := by
    intro k hk
    rw [hget, if_neg (by omega), if_neg (by omega)]
  have htop : vs'[t' + 1]? = some p := by
    rw [hget]
    split
    · rename_i h
      rw [← hpi, List.getElem?_eq_getElem (by omega)]
      simp only [h]
    · simp
  have hlen' : vs'.length = vs.length := by simp [hvs']
  have htake : vs'.take (t' + 1 + 1) = vs.take (t' + 1) ++ [p] := by
    have ht'' : t' + 1 < vs'.length := by omega
    rw [take_snoc vs' (t' + 1) ht'']
    congr 1
    · apply List.ext_getElem?
      intro k
      rw [List.getElem?_take, List.getElem?_take]
      split
      · exact hbefore k (by omega)
      · rfl
    · rw [List.getElem?_eq_getElem ht''] at htop
      rw [Option.some.inj htop]
  have hpre : (vs.take (t' + 1)).Sublist (vs.take (t + 1)) := List.take_sublist_take_left (by omega)
  have hpre' : (vs.take (t' + 1) ++ [p]).Sublist (vs.take (t + 1) ++ [p]) := hpre.append (List.Sublist.refl _)
  have hsplit : vs.take (t' + 1) = vs.take (t' - 1) ++ [vs[t' - 1]'(by omega), vs[t']'(by omega)] :=
    take_two vs t' ht1 (by omega)
  refine ⟨vs', t' + 1, hstep, ⟨by omega, by omega, by omega, ?_, ?_, ?_, ?_, ?_, ?_⟩, ?_, by omega⟩
  · intro k hk
    rw [hget, if_neg (by omega), if_neg (by omega)]
    exact hI.rest k (by omega)
  · rw [hbefore 0 (by omega)]; exact hI.zero
  · rw [hbefore 1 (by omega)]; exact hI.first
  · rw [htake, htk]
    exact (hpre.trans hI.sub).append (List.Sublist.refl _)
  · rw [htake]
    have hold : CwV (vs.take (t' + 1)) := fun a b c h => hI.cw a b c (h.trans hpre)
    rw [hsplit] at hold ⊢
    refine push_cw (o := o) ?_ ?_ hold ?_
    · intro x y h hx
      rw [← hsplit] at h
      exact hang x y (h.trans hpre') hx
    · intro x y h
      rw [← hsplit] at h
      exact hne x y (h.trans hpre')
    · exact (hcw t' ht2 ht1).1.mp hcl
  · rw [htake]
    set H := convexHull ℝ {z | z ∈ (vs.take (t' + 1) ++ [p]).map Vec.pt} with hH
    have hHc : Convex ℝ H := convex_convexHull ℝ _
    have hmem : ∀ v ∈ vs.take (t' + 1) ++ [p], v.pt ∈ H := fun v hv =>
      subset_convexHull ℝ _ (List.mem_map_of_mem (f := Vec.pt) hv)
    have hpH : p.pt ∈ H := hmem p (by simp)
    have h0m : vs[0]'(by omega) ∈ vs.take (t' + 1) ++ [p] :=
      List.mem_append_left _ (List.mem_take_iff_getElem.mpr ⟨0, by omega, rfl⟩)
    have hoH : o.pt ∈ H := by
      have := hmem _ h0m
      rwa [hv0] at this
    have hall : ∀ j (hj : j ≤ t), (vs[j]'(by omega)).pt ∈ H := by
      intro j
      induction j with
      | zero => intro hj; rw [hv0]; exact hoH
      | succ j ih =>
        intro hj
        by_cases hjt : j + 1 ≤ t'
        · exact hmem _ (List.mem_append_left _ (List.mem_take_iff_getElem.mpr ⟨j + 1, by omega, rfl⟩))
        · have hf := hout (j + 1) hj (by omega)
          have hc := hcw (j + 1) hj (by omega)
          have hpos : 0 < area2 (vs[j]'(by omega)).pt (vs[j + 1]'(by omega)).pt p.pt := by
            refine lt_of_le_of_ne (not_lt.mp ?_) (Ne.symm hc.2)
            intro h
            rw [show isClockwise _ _ p = true from hc.1.mpr h] at hf
            exact Bool.noConfusion hf
          have hss := htrip (j + 1) hj (by omega)
          simp only [Nat.add_sub_cancel] at hss
          have hjo : vs[j]'(by omega) ≠ o := by
            have hss' := htrip j (by omega) (by omega)
            exact hne _ _ ((by simp : List.Sublist [vs[j - 1]'(by omega), vs[j]'(by omega)] _).trans hss')
          have hj1o : vs[j + 1]'(by omega) ≠ o := hne _ _ ((by simp : List.Sublist [vs[j]'(by omega), vs[j + 1]'(by omega)] _).trans hss)
          have h3 := mem_triangle (hang _ _ ((by simp : List.Sublist [vs[j]'(by omega), vs[j + 1]'(by omega)] _).trans hss) hjo)
            (hang _ _ ((List.sublist_cons_self _ _).trans hss) hj1o) hpos
          refine convexHull_min ?_ hHc h3
          intro z hz
          rcases hz with rfl | rfl | rfl
          · exact hoH
          · exact ih (by omega)
          · exact hpH
    intro q hq
    rw [htk] at hq
    rcases List.mem_append.mp hq with hq | hq
    · refine convexHull_min ?_ hHc (hI.hull q hq)
      intro z hz
      obtain ⟨v, hv, rfl⟩ := List.mem_map.mp hz
      obtain ⟨j, hj, rfl⟩ := List.mem_take_iff_getElem.mp hv
      exact hall j (by omega)
    · rw [List.mem_singleton.mp hq]; exact hpH
  · have : vs' = (vs.set (t' + 1) (vs[i])).set i (vs[t' + 1]'(by omega)) := by rw [hpi]
    rw [this]
    exact List.set_set_perm (by omega) (by omega)

/-- The whole loop. -/
theorem scan {o : Vec ℝ} {r : List (Vec ℝ)} (hsort : r.Pairwise (fun a b => area2 o.pt a.pt b.pt < 0))
    (hgp : GenPosV (o :: r)) (hnd : (o :: r).Nodup) (m : ℕ) : ∀ (i : ℕ) (vs : List (Vec ℝ)) (t : ℕ), 2 ≤ i →
    i + m = (o :: r).length → ScanInv o (o :: r) i vs t →
    ∃ (vs' : List (Vec ℝ)) (t' : ℕ), grahamFor (List.range' i m) vs (t : ℤ) = .ok (vs', (t' : ℤ)) ∧
      ScanInv o (o :: r) (i + m) vs' t' ∧ vs'.Perm vs ∧ (2 ≤ t ∨ 1 ≤ m → 2 ≤ t') := by
  induction m with
  | zero =>
    intro i vs t h2 him hI
    exact ⟨vs, t, rfl, hI, List.Perm.refl _, by omega⟩
  | succ m ih =>
    intro i vs t h2 him hI
    rw [List.range'_succ]
    obtain ⟨vs1, t1, e1, hI1, p1, ht1⟩ := scan_step hsort hgp hnd h2 (by omega) hI (List.range' (i + 1) m)
    obtain ⟨vs2, t2, e2, hI2, p2, ht2⟩ := ih (i + 1) vs1 t1 (by omega) (by omega) hI1
    refine ⟨vs2, t2, e1.trans e2, ?_, p2.trans p1, fun _ => ht2 (Or.inl ht1)⟩
    rw [show i + (m + 1) = i + 1 + m by omega]
    exact hI2

/-! ## The sort -/

theorem genPos_nodup {pts : List (Vec ℝ)} (hg : GenPos (pts.map Vec.pt) EPSILON) (h3 : 3 ≤ pts.length) :
    (pts.map Vec.pt).Nodup := by
  rw [List.nodup_iff_injective_getElem]
  rintro ⟨i, hi⟩ ⟨j, hj⟩ h
  simp only [List.length_map] at hi hj
  simp only [List.getElem_map] at h
  have := P_inj (hg.hull h3) hi hj (by unfold P; rw [at'_pt pts hi, at'_pt pts hj]; exact h)
  exact Fin.ext this

theorem genPosV_of {pts : List (Vec ℝ)} (hg : GenPos (pts.map Vec.pt) EPSILON) : GenPosV pts := by
  intro a ha b hb c hc hab hac hbc
  obtain ⟨i, hi, rfl⟩ := List.mem_iff_getElem.mp ha
  obtain ⟨j, hj, rfl⟩ := List.mem_iff_getElem.mp hb
  obtain ⟨k, hk, rfl⟩ := List.mem_iff_getElem.mp hc
  have := hg i j k (by simpa) (by simpa) (by simpa) (fun h => hab (by subst h; rfl)) (fun h => hac (by subst h; rfl))
    (fun h => hbc (by subst h; rfl))
  simpa using this

/-- The comparison used for sorting. -/
noncomputable def before (a b : Vec ℝ) : Bool := decide (angleSortPredicate a b Vec.zero < 0)

/-- The comparison puts the origin first and the other points, all below it, in clockwise order. -/
theorem before_iff {pts : List (Vec ℝ)} (hgp : GenPosV pts) {o : Vec ℝ} (ho : o ∈ pts) (h0 : o.pt = 0)
    (hy : ∀ p ∈ pts, p.y ≤ 0) (hinj : ∀ a ∈ pts, ∀ b ∈ pts, a.pt = b.pt → a = b) {a b : Vec ℝ} (ha : a ∈ pts)
    (hb : b ∈ pts) : before a b = true ↔ (a = o ∧ b ≠ o) ∨ (a ≠ o ∧ b ≠ o ∧ area2 o.pt a.pt b.pt < 0) := by
  have hE := EPSILON_pos
  have hz : (Vec.zero : Vec ℝ).pt = 0 := by ext <;> simp [Vec.zero, Vec.pt]
  have hd : ∀ v : Vec ℝ, (Vec.zero : Vec ℝ).dist2 v = v.x ^ 2 + v.y ^ 2 := by
    intro v; simp [Vec.dist2, Vec.zero, PyrusGeom.sq]; ring
  have hzy : (Vec.zero : Vec ℝ).y = 0 := by simp [Vec.zero]
  have hsgn : before a b = true ↔ area2 o.pt a.pt b.pt < 0 ∨
      (area2 o.pt a.pt b.pt < EPSILON ∧ a.x ^ 2 + a.y ^ 2 < b.x ^ 2 + b.y ^ 2) := by
    unfold before angleSortPredicate
    simp only [Tri.dsa_real, hz, ← h0, num_real, Nat.cast_zero, hzy, hd, not_lt.mpr (hy a ha), if_false]
    by_cases h1 : area2 o.pt a.pt b.pt < 0
    · simp [h1]
    · by_cases h2 : area2 o.pt a.pt b.pt < EPSILON
      · by_cases h3 : a.x ^ 2 + a.y ^ 2 < b.x ^ 2 + b.y ^ 2 <;> simp [h1, h2, h3]
      · simp [h1, h2]
  have hox : o.x = 0 ∧ o.y = 0 := ⟨congrArg Prod.fst h0, congrArg Prod.snd h0⟩
  have hpos : ∀ v ∈ pts, v ≠ o → 0 < v.x ^ 2 + v.y ^ 2 := by
    intro v hv hne
    by_contra hc
    push Not at hc
    have hx : v.x = 0 := by nlinarith [sq_nonneg v.x, sq_nonneg v.y]
    have hyy : v.y = 0 := by nlinarith [sq_nonneg v.x, sq_nonneg v.y]
    apply hne
    apply hinj v hv o ho
    rw [h0]; ext <;> simp [Vec.pt, hx, hyy]
  rw [hsgn]
  by_cases hao : a = o
  · subst hao
    have e : area2 a.pt a.pt b.pt = 0 := by unfold area2; ring
    by_cases hbo : b = a
    · subst hbo; simp [e]
    · have := hpos b hb hbo
      simp [e, hox.1, hox.2, hE, hbo, this]
  · by_cases hbo : b = o
    · subst hbo
      have e : area2 b.pt a.pt b.pt = 0 := by unfold area2; ring
      have := hpos a ha hao
      simp only [e, lt_self_iff_false, hE, true_and, false_or, hox.1, hox.2, hao, false_and, ne_eq, not_true_eq_false,
        and_false, or_false, iff_false, not_lt]
      nlinarith
    · by_cases hab : a = b
      · subst hab
        have e : area2 o.pt a.pt a.pt = 0 := by unfold area2; ring
        simp [e, hao]
      · have hg := hgp o ho a ha b hb (Ne.symm hao) (Ne.symm hbo) hab
        simp only [hao, hbo, false_and, ne_eq, not_false_eq_true, true_and, false_or]
        constructor
        · rintro (h | ⟨h, -⟩)
          · exact h
          · rcases abs_cases (area2 o.pt a.pt b.pt) with ⟨h2, h3⟩ | ⟨h2, h3⟩
            · linarith
            · exact h3
        · exact Or.inl

/-- The sorted list: the origin, then the other points clockwise. -/
theorem sort_spec {srt} (hs : Spec.Sorts srt) {pts l : List (Vec ℝ)} (hsub : ∀ v ∈ l, v ∈ pts) (hgp : GenPosV pts)
    {o : Vec ℝ} (ho : o ∈ pts) (h0 : o.pt = 0) (hy : ∀ p ∈ pts, p.y ≤ 0)
    (hinj : ∀ a ∈ pts, ∀ b ∈ pts, a.pt = b.pt → a = b) :
    (srt before l).Perm l ∧ (srt before l).Pairwise (fun a b => before b a = false) := by
  have hiff := fun {a b : Vec ℝ} (ha : a ∈ l) (hb : b ∈ l) =>
    before_iff hgp ho h0 hy hinj (hsub a ha) (hsub b hb)
  have hne0 : ∀ a ∈ pts, ∀ b ∈ pts, a ≠ o → b ≠ o → a ≠ b → area2 o.pt a.pt b.pt ≠ 0 := by
    intro a ha b hb hao hbo hab h
    have := hgp o ho a ha b hb (Ne.symm hao) (Ne.symm hbo) hab
    rw [h, abs_zero] at this
    exact absurd EPSILON_pos (not_lt.mpr this)
  refine ⟨(hs before l).1, (hs before l).2 ?_ ?_ ?_⟩
  · intro a ha
    rw [Bool.eq_false_iff]
    intro h
    rcases (hiff ha ha).mp h with ⟨h1, h2⟩ | ⟨-, -, h3⟩
    · exact h2 h1
    · have e : area2 o.pt a.pt a.pt = 0 := by unfold area2; ring
      rw [e] at h3
      exact lt_irrefl _ h3
  · intro a ha b hb c hc hab hbc
    rw [hiff ha hc]
    rcases (hiff ha hb).mp hab with ⟨rfl, h1⟩ | ⟨h1, h2, h3⟩
    · rcases (hiff hb hc).mp hbc with ⟨h4, h5⟩ | ⟨h4, h5, h6⟩
      · exact absurd h4 h1
      · exact Or.inl ⟨rfl, h5⟩
    · rcases (hiff hb hc).mp hbc with ⟨h4, h5⟩ | ⟨h4, h5, h6⟩
      · exact absurd h4 h2
      · refine Or.inr ⟨h1, h5, ?_⟩
        have hac : a ≠ c := by
          rintro rfl
          have e : area2 o.pt b.pt a.pt = -area2 o.pt a.pt b.pt := by unfold area2; ring
          linarith
        have hn := hne0 a (hsub a ha) c (hsub c hc) h1 h5 hac
        have ya := hy a (hsub a ha)
        have yb := hy b (hsub b hb)
        have yc := hy c (hsub c hc)
        have e : ∀ u v : Vec ℝ, area2 o.pt u.pt v.pt = u.x * v.y - u.y * v.x := by
          intro u v; rw [h0]; unfold area2; simp [Vec.pt]
        rw [e] at h3 h6 hn ⊢
        have key : b.y * (a.x * c.y - a.y * c.x) = a.y * (b.x * c.y - b.y * c.x) + c.y * (a.x * b.y - a.y * b.x) := by
          ring
        have hr : 0 ≤ a.y * (b.x * c.y - b.y * c.x) + c.y * (a.x * b.y - a.y * b.x) :=
          add_nonneg (mul_nonneg_of_nonpos_of_nonpos ya h6.le) (mul_nonneg_of_nonpos_of_nonpos yc h3.le)
        rcases lt_or_eq_of_le yb with hb' | hb'
        · refine lt_of_le_of_ne ?_ hn
          by_contra hc'
          push Not at hc'
          have := mul_neg_of_neg_of_pos hb' hc'
          linarith
        · exfalso
          rw [hb'] at h3 h6
          simp only [mul_zero, zero_mul, zero_sub, sub_zero] at h3 h6
          have hbx : b.x < 0 := by
            by_contra hc'
            push Not at hc'
            nlinarith [mul_nonneg_of_nonpos_of_nonpos ya (neg_nonpos.mpr hc')]
          have := mul_nonneg_of_nonpos_of_nonpos hbx.le yc
          linarith
  · intro a ha b hb
    by_cases hab : a = b
    · exact Or.inl hab
    · right
      rw [hiff ha hb, hiff hb ha]
      by_cases hao : a = o
      · subst hao; exact Or.inl (Or.inl ⟨rfl, fun h => hab h.symm⟩)
      · by_cases hbo : b = o
        · subst hbo; exact Or.inr (Or.inl ⟨rfl, hao⟩)
        · have hn := hne0 a (hsub a ha) b (hsub b hb) hao hbo hab
          rcases lt_or_gt_of_ne hn with h | h
          · exact Or.inl (Or.inr ⟨hao, hbo, h⟩)
          · refine Or.inr (Or.inr ⟨hbo, hao, ?_⟩)
            have e : area2 o.pt b.pt a.pt = -area2 o.pt a.pt b.pt := by unfold area2; ring
            linarith

/-- A sorted list without repetitions starts with the origin, and the other points follow clockwise. -/
theorem sorted_shape {pts l : List (Vec ℝ)} (hgp : GenPosV pts) {o : Vec ℝ} (ho : o ∈ pts) (h0 : o.pt = 0)
    (hy : ∀ p ∈ pts, p.y ≤ 0) (hinj : ∀ a ∈ pts, ∀ b ∈ pts, a.pt = b.pt → a = b) (hsub : ∀ v ∈ l, v ∈ pts) (hol : o ∈ l)
    (hnds : l.Nodup) (hpw : l.Pairwise (fun a b => before b a = false)) :
    ∃ r, l = o :: r ∧ r.Pairwise (fun a b => area2 o.pt a.pt b.pt < 0) := by
  obtain ⟨x, r, rfl⟩ : ∃ x r, l = x :: r := by
    cases l with
    | nil => simp at hol
    | cons x r => exact ⟨x, r, rfl⟩
  have hx : x = o := by
    by_contra hne
    have hor : o ∈ r := by
      rcases List.mem_cons.mp hol with h | h
      · exact absurd h.symm hne
      · exact h
    have := (List.pairwise_cons.mp hpw).1 o hor
    rw [(before_iff hgp ho h0 hy hinj ho (hsub x (List.mem_cons_self))).mpr (Or.inl ⟨rfl, hne⟩)] at this
    exact Bool.noConfusion this
  subst hx
  have hxn := (List.nodup_cons.mp hnds).1
  refine ⟨r, rfl, ?_⟩
  have h1 := (List.pairwise_cons.mp hpw).2
  have h2 : r.Pairwise (· ≠ ·) := (List.nodup_cons.mp hnds).2
  refine (h1.and h2).imp_of_mem ?_
  rintro a b ha hb ⟨hab, hne⟩
  have hap : a ∈ pts := hsub a (List.mem_cons_of_mem _ ha)
  have hbp : b ∈ pts := hsub b (List.mem_cons_of_mem _ hb)
  have hax : a ≠ x := fun h => hxn (h ▸ ha)
  have hbx : b ≠ x := fun h => hxn (h ▸ hb)
  by_contra hc
  push Not at hc
  have hgab := hgp x ho a hap b hbp (Ne.symm hax) (Ne.symm hbx) hne
  have hlt : 0 < area2 x.pt a.pt b.pt := by
    refine lt_of_le_of_ne hc ?_
    intro h; rw [← h, abs_zero] at hgab
    exact absurd EPSILON_pos (not_lt.mpr hgab)
  have e : area2 x.pt b.pt a.pt = -area2 x.pt a.pt b.pt := by unfold area2; ring
  rw [(before_iff hgp ho h0 hy hinj hbp hap).mpr (Or.inr ⟨hbx, hax, by linarith⟩)] at hab
  exact Bool.noConfusion hab

/-! ## C113 -/

/-- What the scan returns for a result of the sort. -/
structure GrahamHull (pts : List (Vec ℝ)) (o : Vec ℝ) (h' : Obj ℝ) : Prop where
  mem : ∀ v ∈ h'.vertices, v ∈ pts
  order : ∃ r, h'.vertices = o :: r ∧ r.Pairwise (fun a b => area2 o.pt a.pt b.pt < 0)
  convex : StrictConvex (h'.vertices.map Vec.pt).reverse
  hull : convexHull ℝ {z | z ∈ h'.vertices.map Vec.pt} = convexHull ℝ {z | z ∈ pts.map Vec.pt}
  edges : {p | ∃ s ∈ h'.getEdges, p ∈ s.pts} = outline (h'.vertices.map Vec.pt)

/-- **C113** (part), as general as possible: whatever the sort does, if it leaves the points after the first one in
clockwise order about the first one, the scan computes the hull. -/
theorem C113_sorted_partial (pts : List (Vec ℝ)) (h3 : 3 ≤ pts.length) (hg : GenPos (pts.map Vec.pt) EPSILON) (srt)
    (x : Vec ℝ) (r : List (Vec ℝ)) (hxr : sortFrom srt pts (minPointIndex pts).toNat = x :: r)
    (hp : (x :: r).Perm pts) (hsort : r.Pairwise (fun a b => area2 x.pt a.pt b.pt < 0)) :
    ∃ h', compute srt (Obj.ofList pts) .graham = .ok h' ∧ GrahamHull pts x h' := by
  have hgp := genPosV_of hg
  have hndp := genPos_nodup hg h3
  have hnd : pts.Nodup := List.Nodup.of_map _ hndp
  have hinj : ∀ a ∈ pts, ∀ b ∈ pts, a.pt = b.pt → a = b := fun a ha b hb h => List.inj_on_of_nodup_map hndp ha hb h
  have hm : minPointIndex pts ≠ -1 := by
    rcases C81_min_point_index pts with ⟨h, _⟩ | ⟨m, hm, hme, -, -⟩
    · rw [h] at h3; simp at h3
    · rw [hme]; omega
  have hnds : (x :: r).Nodup := hp.nodup_iff.mpr hnd
  have hgps : GenPosV (x :: r) := fun a ha b hb c hc => hgp a (hp.subset ha) b (hp.subset hb) c (hp.subset hc)
  have hlen : (x :: r).length = pts.length := hp.length_eq
  have hI : ScanInv x (x :: r) 2 (x :: r) 1 := by
    refine ⟨rfl, le_rfl, by omega, fun _ _ => rfl, rfl, rfl, List.Sublist.refl _, ?_, ?_⟩
    · intro a b c h
      have := h.length_le
      simp at this
    · intro q hq
      exact subset_convexHull ℝ _ (List.mem_map_of_mem (f := Vec.pt) hq)
  obtain ⟨vs, t, hrun, hfin, hvp, ht2⟩ := scan hsort hgps hnds (pts.length - 2) 2 (x :: r) 1 le_rfl (by omega) hI
  have ht2 := ht2 (Or.inr (by omega))
  have hvl : vs.length = pts.length := by rw [hvp.length_eq, hlen]
  have htl : t < vs.length := by have := hfin.lt; omega
  set V := vs.take (t + 1) with hV
  have hVl : V.length = t + 1 := by rw [hV, List.length_take]; omega
  have hfull : (x :: r).take (2 + (pts.length - 2)) = x :: r := List.take_of_length_le (by omega)
  have hVs : V.Sublist (x :: r) := by have := hfin.sub; rwa [hfull] at this
  obtain ⟨w, z, hwz⟩ : ∃ w z, V = w ++ [z] :=
    ⟨V.dropLast, V.getLast (by intro h; rw [h] at hVl; simp at hVl), (List.dropLast_append_getLast _).symm⟩
  have hclr : (Obj.ofList pts).clearResults = Obj.ofList pts := clearResults_input (h := Obj.ofList pts) rfl
  have hv0 : V[0]? = some x := by
    rw [hV, List.getElem?_take, if_pos (by omega)]; exact hfin.zero
  have hok : graham srt (Obj.ofList pts) = .ok ⟨V, [], hullEdges V ++ [Seg.ofPoints x z], true⟩ := by
    unfold graham
    rw [hclr]
    simp only [Obj.ofList, hxr]
    rw [if_neg (by simp; exact ⟨decide_eq_false (by omega), hm⟩)]
    have hrun' : grahamFor (List.range' 2 (pts.length - 2)) (x :: r) 1 = .ok (vs, (t : ℤ)) := hrun
    have hdel : pyDelFrom vs ((t : ℤ) + 1) = V := by
      unfold pyDelFrom
      rw [if_neg (by omega)]
      rw [show ((t : ℤ) + 1).toNat = t + 1 by omega]
    have g0 : pyGet V 0 = .ok x := by
      have := pyGet_nat V 0 (by omega)
      rw [Nat.cast_zero] at this
      rw [this]
      rw [List.getElem?_eq_getElem (by omega)] at hv0
      rw [Option.some.inj hv0]
    have gl : pyGet V (-1) = .ok z := by
      have hl : w.length = t := by rw [hwz] at hVl; simpa using hVl
      rw [hwz]
      unfold pyGet
      simp [hl]
    simp only [hrun', bind, Except.bind, hdel, g0, gl, pure, Except.pure]
  have hnodV : V.Nodup := hnds.sublist hVs
  have hmemV : ∀ v ∈ V, v ∈ pts := fun v hv => hp.subset (hVs.subset hv)
  have hzw : ∀ v ∈ w, v.pt ≠ z.pt := by
    intro v hv h
    have h1 : v ∈ V := by rw [hwz]; exact List.mem_append_left _ hv
    have h2 : z ∈ V := by rw [hwz]; simp
    have := hinj v (hmemV v h1) z (hmemV z h2) h
    subst this
    rw [hwz] at hnodV
    exact (List.nodup_append.mp hnodV).2.2 v hv v (by simp) rfl
  refine ⟨_, hok, ?_, ?_, ?_, ?_, ?_⟩
  · exact hmemV
  · change ∃ r', V = x :: r' ∧ _
    obtain ⟨r', hr'⟩ : ∃ r', V = x :: r' := by
      cases hc : V with
      | nil => rw [hc] at hv0; simp at hv0
      | cons a r' =>
        rw [hc] at hv0
        exact ⟨r', by rw [show a = x by simpa using hv0]⟩
    refine ⟨r', hr', ?_⟩
    rw [hr'] at hVs
    exact hsort.sublist (List.cons_sublist_cons.mp hVs)
  · change StrictConvex (V.map Vec.pt).reverse
    refine hfin.cw.map.reverse.strictConvex (by simp; omega) ?_
    rw [List.nodup_reverse]
    exact List.Nodup.map_on (fun a ha b hb h => hinj a (hmemV a ha) b (hmemV b hb) h) hnodV
  · change convexHull ℝ {z | z ∈ V.map Vec.pt} = _
    refine Set.Subset.antisymm ?_ ?_
    · apply convexHull_mono
      intro q hq
      obtain ⟨v, hv, rfl⟩ := List.mem_map.mp hq
      exact List.mem_map_of_mem (f := Vec.pt) (hmemV v hv)
    · apply convexHull_min _ (convex_convexHull ℝ _)
      intro q hq
      obtain ⟨v, hv, rfl⟩ := List.mem_map.mp hq
      refine hfin.hull v ?_
      rw [hfull]
      exact hp.symm.subset hv
  · exact (C79_graham_partial srt (Obj.ofList pts) _ hok (by rw [hclr]; exact h3) w z hwz hzw).2

/-- **C113** (part) The Graham scan computes the hull of every input in general position that contains the origin and no
point above it: nothing is raised, the vertices are input points starting with the origin, they form a strictly convex
polygon in *clockwise* order with the convex hull of the input, and the edges cover exactly its outline. -/
theorem C113_graham_partial (pts : List (Vec ℝ)) (h3 : 3 ≤ pts.length) (hg : GenPos (pts.map Vec.pt) EPSILON) (srt)
    (hs : Spec.Sorts srt) (o : Vec ℝ) (ho : o ∈ pts) (h0 : o.pt = 0) (hy : ∀ p ∈ pts, p.y ≤ 0) :
    ∃ h', compute srt (Obj.ofList pts) .graham = .ok h' ∧ GrahamHull pts o h' := by
  have hgp := genPosV_of hg
  have hndp := genPos_nodup hg h3
  have hnd : pts.Nodup := List.Nodup.of_map _ hndp
  have hinj : ∀ a ∈ pts, ∀ b ∈ pts, a.pt = b.pt → a = b := fun a ha b hb h => List.inj_on_of_nodup_map hndp ha hb h
  obtain ⟨m, hm, hme⟩ : ∃ m, m < pts.length ∧ minPointIndex pts = (m : ℕ) := by
    rcases C81_min_point_index pts with ⟨h, _⟩ | ⟨m, hm, hme, -, -⟩
    · rw [h] at h3; simp at h3
    · exact ⟨m, hm, hme⟩
  set sw := (pts.set 0 (at' pts m)).set m (at' pts 0) with hsw
  have hswp : sw.Perm pts := by
    rw [hsw, at'_pt pts hm, at'_pt pts (show 0 < pts.length by omega)]
    exact List.set_set_perm (by omega) (by omega)
  obtain ⟨hperm, hpw⟩ := sort_spec hs (l := sw) (fun v hv => hswp.subset hv) hgp ho h0 hy hinj
  have hsf : sortFrom srt pts m = srt before sw := by
    unfold sortFrom
    rw [if_neg (by omega)]
    rfl
  have hp : (srt before sw).Perm pts := hperm.trans hswp
  have hnds : (srt before sw).Nodup := hp.nodup_iff.mpr hnd
  obtain ⟨r, hxr, hsort⟩ := sorted_shape hgp ho h0 hy hinj (fun v hv => hp.subset hv) (hp.symm.subset ho) hnds hpw
  rw [hxr] at hp
  exact C113_sorted_partial pts h3 hg srt o r (by rw [hme, Int.toNat_natCast, hsf, hxr]) hp hsort

/-- Non-vacuity of C113: five points, one of them inside. -/
noncomputable def belowPts : List (Vec ℝ) := [⟨-4, -1, true⟩, ⟨4, -2, true⟩, ⟨0, 0, true⟩, ⟨0, -1, true⟩, ⟨1, -5, true⟩]

theorem belowPts_ok : GenPos (belowPts.map Vec.pt) EPSILON ∧ (∃ o ∈ belowPts, o.pt = 0) ∧ ∀ p ∈ belowPts, p.y ≤ 0 := by
  refine ⟨?_, ⟨⟨0, 0, true⟩, by simp [belowPts], rfl⟩, ?_⟩
  · intro i j k hi hj hk hij hik hjk
    rw [EPSILON_real]
    simp only [belowPts, List.map_cons, List.map_nil, List.length_cons, List.length_nil] at hi hj hk ⊢
    interval_cases i <;> interval_cases j <;> interval_cases k <;> first
      | (exfalso; omega)
      | (norm_num [area2, Vec.pt, abs_of_nonneg, abs_of_neg])
  · intro p hp
    fin_cases hp <;> norm_num

/-- A triangle in general position whose middle vertex is on the side of the origin. -/
noncomputable def nearPts : List (Vec ℝ) := [⟨0, 4, true⟩, ⟨1, 1, true⟩, ⟨4, 0, true⟩]

theorem nearPts_genPos : GenPos (nearPts.map Vec.pt) EPSILON := by
  intro i j k hi hj hk hij hik hjk
  rw [EPSILON_real]
  simp only [nearPts, List.map_cons, List.map_nil, List.length_cons, List.length_nil] at hi hj hk ⊢
  interval_cases i <;> interval_cases j <;> interval_cases k <;> first
    | (exfalso; omega)
    | (norm_num [area2, Vec.pt, abs_of_nonneg, abs_of_neg])

/-- **C113 is false** in general: the points are sorted about the origin instead of about the starting point. For the
triangle (0,4), (1,1), (4,0) the scan returns two vertices and loses (1,1). -/
theorem C113_refuted (srt) (hs : Spec.Sorts srt) : GenPos (nearPts.map Vec.pt) EPSILON ∧
    ∃ h', compute srt (Obj.ofList nearPts) .graham = .ok h' ∧ h'.vertices = [⟨0, 4, true⟩, ⟨4, 0, true⟩] ∧
      ((1, 1) : Pt) ∉ convexHull ℝ {z | z ∈ h'.vertices.map Vec.pt} := by
  refine ⟨nearPts_genPos, ?_⟩
  have hsort : srt (fun a b => decide (angleSortPredicate a b Vec.zero < 0)) nearPts = nearPts := by
    obtain ⟨h1, h2⟩ := hs (fun a b => decide (angleSortPredicate a b Vec.zero < 0)) nearPts
    refine List.Perm.eq_of_pairwise (le := fun a b => decide (angleSortPredicate b a Vec.zero < 0) = false) ?_
      (h2 ?_ ?_ ?_) ?_ h1
    · intro a b ha hb
      have ha' := h1.subset ha
      unfold nearPts at ha' hb
      fin_cases ha' <;> fin_cases hb <;>
        norm_num [angleSortPredicate, Tri.dsa, Vec.zero, EPSILON_real, Vec.dist2]
    · intro a ha
      unfold nearPts at ha
      fin_cases ha <;> norm_num [angleSortPredicate, Tri.dsa, Vec.zero, EPSILON_real, Vec.dist2]
    · intro a ha b hb c hc
      unfold nearPts at ha hb hc
      fin_cases ha <;> fin_cases hb <;> fin_cases hc <;>
        norm_num [angleSortPredicate, Tri.dsa, Vec.zero, EPSILON_real, Vec.dist2]
    · intro a ha b hb
      unfold nearPts at ha hb
      fin_cases ha <;> fin_cases hb <;>
        norm_num [angleSortPredicate, Tri.dsa, Vec.zero, EPSILON_real, Vec.dist2]
    · unfold nearPts
      simp only [List.pairwise_cons, List.mem_cons, List.not_mem_nil, or_false, forall_eq_or_imp, forall_eq]
      norm_num [angleSortPredicate, Tri.dsa, Vec.zero, EPSILON_real, Vec.dist2]
  have hmi : minPointIndex nearPts = 0 := by
    norm_num [nearPts, minPointIndex, List.range, List.range.loop, minStep, at']
  have hsf : sortFrom srt nearPts 0 = nearPts := by
    unfold sortFrom
    rw [if_neg (by simp [nearPts])]
    have e : (nearPts.set 0 (at' nearPts 0)).set 0 (at' nearPts 0) = nearPts := by simp [nearPts, at']
    simp only [e]
    exact hsort
  have hcl : (Obj.ofList nearPts).clearResults = Obj.ofList nearPts :=
    clearResults_input (h := Obj.ofList nearPts) rfl
  have hf : grahamFor [2] nearPts 1 = .ok ([⟨0, 4, true⟩, ⟨4, 0, true⟩, ⟨1, 1, true⟩], 1) := by
    unfold nearPts
    simp only [grahamFor, grahamWhile, pyGet, pySet, isClockwise, bind, Except.bind, pure, Except.pure, List.length_cons,
      List.length_nil]
    norm_num [Tri.dsa, EPSILON_real, Vec.dist2, PyrusGeom.sq, show Int.toNat 2 = 2 from rfl]
  refine ⟨⟨[⟨0, 4, true⟩, ⟨4, 0, true⟩], [], hullEdges [⟨0, 4, true⟩, ⟨4, 0, true⟩] ++
    [Seg.ofPoints ⟨0, 4, true⟩ ⟨4, 0, true⟩], true⟩, ?_, rfl, ?_⟩
  · simp only [compute, graham, hcl]
    simp only [Obj.ofList, hmi, show Int.toNat 0 = 0 from rfl, hsf]
    rw [if_neg (by simp [nearPts])]
    simp only [show nearPts.length = 3 from rfl, show List.range' 2 (3 - 2) = [2] from rfl, hf, bind, Except.bind,
      pure, Except.pure]
    rfl
  · intro h
    have hsub : convexHull ℝ {z : Pt | z ∈ ([⟨0, 4, true⟩, ⟨4, 0, true⟩] : List (Vec ℝ)).map Vec.pt} ⊆
        {z : Pt | 0 ≤ area2 (4, 0) (0, 4) z} ∩ {z : Pt | 0 ≤ area2 (0, 4) (4, 0) z} := by
      refine convexHull_min ?_ ((convex_left _ _).inter (convex_left _ _))
      intro z hz
      simp only [List.map_cons, List.map_nil, List.mem_cons, List.not_mem_nil, or_false, Set.mem_ofPred_eq] at hz
      rcases hz with rfl | rfl <;> constructor <;> norm_num [area2, Vec.pt]
    have := (hsub h).2
    norm_num [area2] at this

end Hull
end PyrusGeom
