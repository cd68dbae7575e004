import Verif.Props.FloatHull
import Verif.Props.FloatRange

/-! # Properties C124, C125: the direct method and the Graham scan on a common grid in double precision -/

namespace PyrusGeom
open Spec Hull

theorem Vec.zero_onGrid (k : ℤ) : (Vec.zero : Vec (FP double)).OnGrid k := by
  have hz : (num 0 : FP double).val = 0 := fp_zero
  exact ⟨⟨0, by norm_num, by change (num 0 : FP double).val = _; rw [hz]; simp⟩,
    ⟨0, by norm_num, by change (num 0 : FP double).val = _; rw [hz]; simp⟩⟩

theorem angleSort_exact {k : ℤ} (hk : -9 ≤ k) {a b c : Vec (FP double)} (ha : a.OnGrid k) (hb : b.OnGrid k)
    (hc : c.OnGrid k) : angleSortPredicate a.exact b.exact c.exact = angleSortPredicate a b c := by
  unfold angleSortPredicate
  simp only [(fp_dsa_tests hk hc ha hb).1, (fp_dsa_tests hk hc ha hb).2, fp_dist2_lt (show -537 ≤ k by omega) hc hb hc ha,
    fp_dist2_lt (show -537 ≤ k by omega) hc ha hc hb]
  by_cases hy : c.y < a.y
  · have hy' : c.exact.y < a.exact.y := hy
    simp only [if_pos hy, if_pos hy']
  · have hy' : ¬ c.exact.y < a.exact.y := hy
    simp only [if_neg hy, if_neg hy']

theorem isClockwise_exact {k : ℤ} (hk : -9 ≤ k) {a b c : Vec (FP double)} (ha : a.OnGrid k) (hb : b.OnGrid k)
    (hc : c.OnGrid k) : isClockwise a.exact b.exact c.exact = isClockwise a b c := by
  unfold isClockwise
  simp only [(fp_dsa_tests hk ha hb hc).1, (fp_dsa_tests hk ha hb hc).2, fp_dist2_lt (show -537 ≤ k by omega) ha hc ha hb]

theorem pyGet_map {α β : Type} (f : α → β) (l : List α) (i : ℤ) : pyGet (l.map f) i = (pyGet l i).map f := by
  unfold pyGet
  simp only [List.length_map]
  generalize (if i < 0 then i + (l.length : ℤ) else i) = j
  by_cases hj : j < 0
  · rw [if_pos hj, if_pos hj]; rfl
  · rw [if_neg hj, if_neg hj, List.getElem?_map]
    cases l[j.toNat]? <;> rfl

theorem pyGet_mem {α : Type} {l : List α} {i : ℤ} {a : α} (h : pyGet l i = .ok a) : a ∈ l := by
  unfold pyGet at h
  simp only at h
  split_ifs at h
  all_goals
    split at h
    · rename_i b hb
      rw [Except.ok.injEq] at h
      rw [← h]; exact List.mem_of_getElem? hb
    · simp at h

theorem pySet_map {α β : Type} (f : α → β) (l : List α) (i : ℤ) (a : α) :
    pySet (l.map f) i (f a) = (pySet l i a).map (List.map f) := by
  unfold pySet
  simp only [List.length_map]
  split_ifs
  all_goals first
    | rfl
    | (simp only [Except.map]; rw [List.map_set])

theorem pySet_mem {α : Type} {l l' : List α} {i : ℤ} {a : α} (h : pySet l i a = .ok l') : ∀ v ∈ l', v = a ∨ v ∈ l := by
  unfold pySet at h
  simp only at h
  split_ifs at h
  all_goals
    rw [Except.ok.injEq] at h
    intro v hv
    rw [← h] at hv
    exact (List.mem_or_eq_of_mem_set hv).symm

theorem grahamWhile_exact {P : Vec (FP double) → Prop}
    (hC : ∀ a b c, P a → P b → P c → isClockwise a.exact b.exact c.exact = isClockwise a b c)
    {vs : List (Vec (FP double))} (h : ∀ v ∈ vs, P v) {p : Vec (FP double)} (hp : P p) (fuel : ℕ) (top : ℤ) :
    grahamWhile (vs.map Vec.exact) p.exact fuel top = grahamWhile vs p fuel top := by
  induction fuel generalizing top with
  | zero => rfl
  | succ n ih =>
    unfold grahamWhile
    rw [pyGet_map, pyGet_map]
    cases ha : pyGet vs (top - 1) with
    | error e => rfl
    | ok a =>
      cases hb : pyGet vs top with
      | error e => rfl
      | ok b =>
        simp only [Except.map, bind, Except.bind]
        rw [hC _ _ _ (h a (pyGet_mem ha)) (h b (pyGet_mem hb)) hp, ih]

theorem grahamFor_exact {P : Vec (FP double) → Prop}
    (hC : ∀ a b c, P a → P b → P c → isClockwise a.exact b.exact c.exact = isClockwise a b c) (is : List ℕ) :
    ∀ (vs : List (Vec (FP double))) (top : ℤ), (∀ v ∈ vs, P v) →
    grahamFor is (vs.map Vec.exact) top = (grahamFor is vs top).map (fun s => (s.1.map Vec.exact, s.2)) ∧
    ∀ s, grahamFor is vs top = .ok s → ∀ v ∈ s.1, v ∈ vs := by
  induction is with
  | nil =>
    intro vs top h
    refine ⟨rfl, ?_⟩
    intro s hs
    unfold grahamFor at hs
    rw [Except.ok.injEq] at hs
    subst hs
    exact fun v hv => hv
  | cons i is ih =>
    intro vs top h
    unfold grahamFor
    rw [pyGet_map]
    cases hp : pyGet vs i with
    | error e => exact ⟨rfl, fun s hs => by simp [bind, Except.bind] at hs⟩
    | ok p =>
      simp only [Except.map, bind, Except.bind]
      rw [List.length_map, grahamWhile_exact hC h (h p (pyGet_mem hp))]
      cases grahamWhile vs p (2 * vs.length + 2) top with
      | error e => exact ⟨rfl, fun s hs => by simp at hs⟩
      | ok t =>
        simp only [Except.map, bind, Except.bind]
        rw [pyGet_map]
        cases ht : pyGet vs (t + 1) with
        | error e => exact ⟨rfl, fun s hs => by simp at hs⟩
        | ok tmp =>
          simp only [Except.map, bind, Except.bind]
          rw [pySet_map]
          cases h1 : pySet vs (t + 1) p with
          | error e => exact ⟨rfl, fun s hs => by simp at hs⟩
          | ok vs1 =>
            simp only [Except.map, bind, Except.bind]
            rw [pySet_map]
            cases h2 : pySet vs1 i tmp with
            | error e => exact ⟨rfl, fun s hs => by simp at hs⟩
            | ok vs2 =>
              simp only [Except.map, bind, Except.bind]
              have hsub : ∀ v ∈ vs2, v ∈ vs := by
                intro v hv
                rcases pySet_mem h2 v hv with rfl | hv
                · exact pyGet_mem ht
                · rcases pySet_mem h1 v hv with rfl | hv
                  · exact pyGet_mem hp
                  · exact hv
              obtain ⟨e1, e2⟩ := ih vs2 (t + 1) (fun v hv => h v (hsub v hv))
              exact ⟨e1, fun s hs v hv => hsub v (e2 s hs v hv)⟩

/-- The comparison of the sorts in double precision. -/
noncomputable def beforeF (a b : Vec (FP double)) : Bool := decide (angleSortPredicate a b Vec.zero < 0)

theorem beforeF_exact {k : ℤ} (hk : -9 ≤ k) {a b : Vec (FP double)} (ha : a.OnGrid k) (hb : b.OnGrid k) :
    before a.exact b.exact = beforeF a b := by
  unfold before beforeF
  rw [← exact_zero, angleSort_exact hk ha hb (Vec.zero_onGrid k)]

open Classical in
/-- A sort of exact vectors that does on vectors with property `P` what `srt` does in double precision. -/
noncomputable def exactSort (P : Vec (FP double) → Prop) (srt : (Vec (FP double) → Vec (FP double) → Bool) → List (Vec (FP double)) →
    List (Vec (FP double))) (lt : Vec ℝ → Vec ℝ → Bool) (L : List (Vec ℝ)) : List (Vec ℝ) :=
  if h : lt = before ∧ ∃ l : List (Vec (FP double)), (∀ v ∈ l, P v) ∧ l.map Vec.exact = L then
    (srt beforeF h.2.choose).map Vec.exact
  else (L.attach.mergeSort (fun a b => !lt b.1 a.1)).map Subtype.val

theorem exactSort_map {P : Vec (FP double) → Prop} (srt) {l : List (Vec (FP double))} (h : ∀ v ∈ l, P v) :
    exactSort P srt before (l.map Vec.exact) = (srt beforeF l).map Vec.exact := by
  have hc : before = before ∧ ∃ l' : List (Vec (FP double)), (∀ v ∈ l', P v) ∧ l'.map Vec.exact = l.map Vec.exact :=
    ⟨rfl, l, h, rfl⟩
  unfold exactSort
  rw [dif_pos hc]
  have := Vec.exact_injective.list_map hc.2.choose_spec.2
  rw [this]

theorem exactSort_perm {P : Vec (FP double) → Prop} {srt} (hs : ∀ lt l, (srt lt l).Perm l) (lt) (L : List (Vec ℝ)) :
    (exactSort P srt lt L).Perm L := by
  by_cases hc : lt = before ∧ ∃ l : List (Vec (FP double)), (∀ v ∈ l, P v) ∧ l.map Vec.exact = L
  · obtain ⟨rfl, l, hl, rfl⟩ := hc
    rw [exactSort_map srt hl]
    exact (hs beforeF l).map _
  · unfold exactSort
    rw [dif_neg hc]
    exact (Spec.sorts_mergeSort lt L).1

theorem exactSort_sorts {P : Vec (FP double) → Prop} (hB : ∀ a b, P a → P b → before a.exact b.exact = beforeF a b)
    {srt} (hs : Spec.Sorts srt) : Spec.Sorts (exactSort P srt) := by
  intro lt L
  by_cases hc : lt = before ∧ ∃ l : List (Vec (FP double)), (∀ v ∈ l, P v) ∧ l.map Vec.exact = L
  · obtain ⟨rfl, l, hl, rfl⟩ := hc
    rw [exactSort_map srt hl]
    obtain ⟨h1, h2⟩ := hs beforeF l
    refine ⟨h1.map _, ?_⟩
    intro g1 g2 g3
    have hb : ∀ a ∈ l, ∀ b ∈ l, before a.exact b.exact = beforeF a b := fun a ha b hb => hB _ _ (hl a ha) (hl b hb)
    have hm : ∀ a ∈ l, a.exact ∈ l.map Vec.exact := fun a ha => List.mem_map_of_mem ha
    have h3 := h2 (fun a ha => by rw [← hb a ha a ha]; exact g1 _ (hm a ha))
      (fun a ha b hb' c hc h4 h5 => by
        rw [← hb a ha b hb'] at h4
        rw [← hb b hb' c hc] at h5
        rw [← hb a ha c hc]
        exact g2 _ (hm a ha) _ (hm b hb') _ (hm c hc) h4 h5)
      (fun a ha b hb' => by
        rw [← hb a ha b hb', ← hb b hb' a ha]
        rcases g3 _ (hm a ha) _ (hm b hb') with h | h | h
        · exact .inl (Vec.exact_injective h)
        · exact .inr (.inl h)
        · exact .inr (.inr h))
    rw [List.pairwise_map]
    refine List.Pairwise.imp_of_mem ?_ h3
    intro a b ha hb' h
    rw [hb b (h1.subset hb') a (h1.subset ha)]
    exact h
  · unfold exactSort
    rw [dif_neg hc]
    exact Spec.sorts_mergeSort lt L

/-- The object with exact vectors. -/
def Hull.Obj.exact (h : Obj (FP double)) : Obj ℝ :=
  ⟨h.input.map Vec.exact, h.verts.map Vec.exact, h.edges.map Seg.exact, h.aliased⟩

theorem Hull.Obj.exact_vertices (h : Obj (FP double)) : h.exact.vertices = h.vertices.map Vec.exact := by
  unfold Obj.vertices Obj.exact
  cases h.aliased <;> rfl

theorem at'_prop {P : Vec (FP double) → Prop} {pts : List (Vec (FP double))} (h : ∀ v ∈ pts, P v) {i : ℕ}
    (hi : i < pts.length) : P (at' pts i) := by
  unfold at'
  rw [List.getD_eq_getElem?_getD, List.getElem?_eq_getElem hi]
  exact h _ (List.getElem_mem hi)

theorem sortFrom_exact {P : Vec (FP double) → Prop} (srt) {pts : List (Vec (FP double))} (h : ∀ v ∈ pts, P v) (i : ℕ) :
    sortFrom (exactSort P srt) (pts.map Vec.exact) i = (sortFrom srt pts i).map Vec.exact := by
  unfold sortFrom
  rw [List.length_map]
  split_ifs with hi
  · rfl
  · have hsw : ∀ v ∈ (pts.set 0 (at' pts i)).set i (at' pts 0), P v := by
      intro v hv
      rcases List.mem_or_eq_of_mem_set hv with hv | rfl
      · rcases List.mem_or_eq_of_mem_set hv with hv | rfl
        · exact h v hv
        · exact at'_prop h (by omega)
      · exact at'_prop h (by omega)
    have e := exactSort_map srt hsw
    rw [List.map_set, List.map_set] at e
    simp only [at'_exact]
    exact e

theorem graham_exact {P : Vec (FP double) → Prop}
    (hC : ∀ a b c, P a → P b → P c → isClockwise a.exact b.exact c.exact = isClockwise a b c)
    {srt} (hs : ∀ lt l, (srt lt l).Perm l) {pts : List (Vec (FP double))} (h : ∀ v ∈ pts, P v) :
    graham (exactSort P srt) (Obj.ofList (pts.map Vec.exact)) = (graham srt (Obj.ofList pts)).map Obj.exact := by
  have e1 : (Obj.ofList (pts.map Vec.exact)).clearResults = Obj.ofList (pts.map Vec.exact) := rfl
  have e2 : (Obj.ofList pts).clearResults = Obj.ofList pts := rfl
  unfold graham
  rw [e1, e2]
  have e3 : (Obj.ofList (pts.map Vec.exact)).input = pts.map Vec.exact := rfl
  have e4 : (Obj.ofList pts).input = pts := rfl
  simp only [e3, e4, List.length_map, minPointIndex_exact]
  by_cases hc : (pts.length < 3 || minPointIndex pts == -1) = true
  · rw [if_pos hc, if_pos hc]; rfl
  · rw [if_neg hc, if_neg hc]
    rw [sortFrom_exact srt h _]
    have hg : ∀ v ∈ sortFrom srt pts (minPointIndex pts).toNat, P v := by
      intro v hv
      unfold sortFrom at hv
      split_ifs at hv
      · exact h v hv
      · have hv := (hs _ _).subset hv
        rcases List.mem_or_eq_of_mem_set hv with hv | rfl
        · rcases List.mem_or_eq_of_mem_set hv with hv | rfl
          · exact h v hv
          · exact at'_prop h (by omega)
        · exact at'_prop h (by omega)
    generalize sortFrom srt pts (minPointIndex pts).toNat = vs at hg
    obtain ⟨q1, -⟩ := grahamFor_exact hC (List.range' 2 (pts.length - 2)) vs 1 hg
    simp only [bind, Except.bind]
    rw [q1]
    cases grahamFor (List.range' 2 (pts.length - 2)) vs 1 with
    | error e => rfl
    | ok s =>
      have e5 : pyDelFrom (s.1.map Vec.exact) (s.2 + 1) = (pyDelFrom s.1 (s.2 + 1)).map Vec.exact := by
        unfold pyDelFrom
        rw [List.length_map, List.map_take]
      simp only [Except.map]
      rw [e5, pyGet_map, pyGet_map]
      generalize pyDelFrom s.1 (s.2 + 1) = ws
      cases pyGet ws 0 with
      | error e => rfl
      | ok v0 =>
        cases pyGet ws (-1) with
        | error e => rfl
        | ok vl =>
          simp only [Except.map, pure, Except.pure]
          congr 1
          unfold Obj.exact
          simp only [hullEdges_exact, List.map_append, List.map_cons, List.map_nil]
          rfl

/-! ## The direct method -/

theorem fp_r2_lt {k : ℤ} (hk : -537 ≤ k) {a b c : Vec (FP double)} (ha : a.OnGrid k) (hb : b.OnGrid k) (hc : c.OnGrid k) :
    ((c.sub a).r2 < (b.sub a).r2) ↔ (c.exact.sub a.exact).r2 < (b.exact.sub a.exact).r2 := by
  have e : ∀ u : Vec (FP double), (u.sub a).r2 = u.dist2 a := fun u => rfl
  have e' : ∀ u : Vec ℝ, (u.sub a.exact).r2 = u.dist2 a.exact := fun u => rfl
  rw [e, e, e', e', fp_dist2_lt hk hc ha hb ha]

theorem outer_exact {k : ℤ} (hk : -9 ≤ k) {a b c : Vec (FP double)} (ha : a.OnGrid k) (hb : b.OnGrid k) (hc : c.OnGrid k) :
    ((b.sub a).outerProduct (c.sub a)).val = (b.exact.sub a.exact).outerProduct (c.exact.sub a.exact) ∧
    Grid (k + k) (2 ^ 53) ((b.sub a).outerProduct (c.sub a)).val := by
  have e : ((b.sub a).outerProduct (c.sub a)).val = area2 a.fpt b.fpt c.fpt := fp_outer_grid (by omega) ha hb hc
  rw [e]
  exact ⟨rfl, (fp_dsa_grid (by omega) ha hb hc).2⟩

theorem Grid.abs {k B : ℤ} {x : ℝ} (h : Grid k B x) : Grid k B |x| := by
  rcases abs_choice x with e | e <;> rw [e]
  · exact h
  · exact h.neg

theorem Grid.trichotomy {k B : ℤ} {x : ℝ} (h : Grid k B x) : x ≤ -((2 : ℝ) ^ k) ∨ x = 0 ∨ (2 : ℝ) ^ k ≤ x := by
  rcases lt_trichotomy x 0 with h1 | h1 | h1
  · left; have := h.neg.unit_le (by linarith); linarith
  · exact .inr (.inl h1)
  · exact .inr (.inr (h.unit_le h1))

theorem directK_exact {k : ℤ} (hk : -9 ≤ k) {pts : List (Vec (FP double))} (h : ∀ v ∈ pts, v.OnGrid k) (i j : ℕ)
    {a b : Vec (FP double)} (ha : a.OnGrid k) (hb : b.OnGrid k) (ks : List ℕ) :
    ∀ last : FP double, Grid (k + k) (2 ^ 53) last.val →
      (directK (pts.map Vec.exact) i j (b.exact.sub a.exact) a.exact ks last.val) =
        (directK pts i j (b.sub a) a ks last).map FP.val := by
  induction ks with
  | nil => intro last _; rfl
  | cons m ks ih =>
    intro last hl
    unfold directK
    by_cases hm : (m == i || m == j) = true
    · rw [if_pos hm, if_pos hm]; exact ih last hl
    · rw [if_neg hm, if_neg hm, at'_exact]
      have hc := at'_onGrid h m
      obtain ⟨eo, go⟩ := outer_exact hk ha hb hc
      simp only
      have t1 : (fabs ((b.sub a).outerProduct ((at' pts m).sub a)) < (EPSILON : FP double)) ↔
          fabs ((b.exact.sub a.exact).outerProduct ((at' pts m).exact.sub a.exact)) < (EPSILON : ℝ) := by
        rw [fabs_real, ← eo, FP.lt_def, fp_fabs_val, go.abs.lt_small (by omega) fp_EPSILON.1 fp_EPSILON.2, go.abs.lt_small (by omega) EPSILON_pos EPSILON_small]
      have t2 := fp_r2_lt (show -537 ≤ k by omega) ha hb hc
      have t3 : ((b.sub a).outerProduct ((at' pts m).sub a) * last < num 0) ↔
          (b.exact.sub a.exact).outerProduct ((at' pts m).exact.sub a.exact) * last.val < num 0 := by
        rw [fp_lt_zero, ← eo, num_real, Nat.cast_zero]
        exact rne_mul_neg_iff (u := (2 : ℝ) ^ (k + k)) (by positivity)
          (by rw [← zpow_add₀ (by norm_num)]; exact isDouble_pow _ (by omega)) go.trichotomy hl.trichotomy
      by_cases c1 : fabs ((b.sub a).outerProduct ((at' pts m).sub a)) < (EPSILON : FP double) ∧
          ((at' pts m).sub a).r2 < (b.sub a).r2
      · rw [if_pos c1, if_pos ⟨t1.mp c1.1, t2.mp c1.2⟩]; rfl
      · rw [if_neg c1, if_neg (fun hh => c1 ⟨t1.mpr hh.1, t2.mpr hh.2⟩)]
        by_cases c2 : (b.sub a).outerProduct ((at' pts m).sub a) * last < num 0
        · rw [if_pos c2, if_pos (t3.mp c2)]; rfl
        · rw [if_neg c2, if_neg (fun hh => c2 (t3.mpr hh)), ← eo]
          exact ih _ go

theorem directStep_exact {k : ℤ} (hk : -9 ≤ k) {pts : List (Vec (FP double))} (h : ∀ v ∈ pts, v.OnGrid k)
    (s : List (Vec (FP double)) × List (Seg (FP double))) (ij : ℕ × ℕ) :
    directStep (pts.map Vec.exact) (s.1.map Vec.exact, s.2.map Seg.exact) ij =
      ((directStep pts s ij).1.map Vec.exact, (directStep pts s ij).2.map Seg.exact) := by
  have hz : (num 0 : FP double).val = 0 := fp_zero
  have e := directK_exact hk h ij.1 ij.2 (at'_onGrid h ij.1) (at'_onGrid h ij.2) (List.range pts.length) (num 0)
    ⟨0, by norm_num, by rw [hz]; simp⟩
  rw [hz] at e
  unfold directStep
  simp only [at'_exact, List.length_map, num_real, Nat.cast_zero, e]
  cases directK pts ij.1 ij.2 ((at' pts ij.2).sub (at' pts ij.1)) (at' pts ij.1) (List.range pts.length) (num 0) with
  | none => rfl
  | some last =>
    simp only [Option.map_some, List.map_append, List.map_cons, List.map_nil, Prod.mk.injEq, true_and, List.append_cancel_left_eq,
      List.cons.injEq, and_true]
    by_cases hl : last < num 0
    · rw [if_pos hl, if_pos ((fp_lt_zero last).mp hl)]; rfl
    · rw [if_neg hl, if_neg (fun hh => hl ((fp_lt_zero last).mpr hh))]; rfl

theorem directStep_mem {pts : List (Vec (FP double))} {P : Vec (FP double) → Prop} (h : ∀ v ∈ pts, P v) (l : List (ℕ × ℕ))
    (hl : ∀ e ∈ l, e.1 < pts.length ∧ e.2 < pts.length)
    (s : List (Vec (FP double)) × List (Seg (FP double))) (hs : ∀ v ∈ s.1, P v) :
    ∀ v ∈ (l.foldl (directStep pts) s).1, P v := by
  induction l generalizing s with
  | nil => exact hs
  | cons ij l ih =>
    refine ih (fun e he => hl e (List.mem_cons_of_mem _ he)) _ ?_
    obtain ⟨l1, l2⟩ := hl ij List.mem_cons_self
    unfold directStep
    simp only
    split
    · exact hs
    · intro v hv
      simp only [List.mem_append, List.mem_cons, List.not_mem_nil, or_false] at hv
      rcases hv with hv | rfl | rfl
      · exact hs v hv
      · exact at'_prop h l1
      · exact at'_prop h l2

theorem list2set_exact (l : List (Vec (FP double))) : list2set Vec.eq (l.map Vec.exact) = (list2set Vec.eq l).map Vec.exact := by
  have key : ∀ (l s : List (Vec (FP double))),
      (l.map Vec.exact).foldl (fun sub item => if sub.any (fun s => Vec.eq s item) then sub else sub ++ [item]) (s.map Vec.exact) =
      (l.foldl (fun sub item => if sub.any (fun s => Vec.eq s item) then sub else sub ++ [item]) s).map Vec.exact := by
    intro l
    induction l with
    | nil => intro s; rfl
    | cons v l ih =>
      intro s
      rw [List.map_cons, List.foldl_cons, List.foldl_cons, ← ih]
      congr 1
      rw [List.any_map]
      have : ((fun s => Vec.eq s v.exact) ∘ Vec.exact) = fun s => Vec.eq s v := by
        funext u; simp only [Function.comp, fp_vec_eq]
      rw [this]
      split_ifs <;> simp
  exact key l []

theorem direct_exact {P : Vec (FP double) → Prop} (srt) {pts : List (Vec (FP double))} (h : ∀ v ∈ pts, P v)
    (hD : ∀ (s : List (Vec (FP double)) × List (Seg (FP double))), ∀ ij ∈ directPairs pts.length,
      directStep (pts.map Vec.exact) (s.1.map Vec.exact, s.2.map Seg.exact) ij =
        ((directStep pts s ij).1.map Vec.exact, (directStep pts s ij).2.map Seg.exact)) :
    direct (exactSort P srt) (Obj.ofList (pts.map Vec.exact)) = (direct srt (Obj.ofList pts)).exact := by
  have e1 : (Obj.ofList (pts.map Vec.exact)).clearResults = Obj.ofList (pts.map Vec.exact) := rfl
  have e2 : (Obj.ofList pts).clearResults = Obj.ofList pts := rfl
  unfold direct
  rw [e1, e2]
  have e3 : (Obj.ofList (pts.map Vec.exact)).input = pts.map Vec.exact := rfl
  have e4 : (Obj.ofList pts).input = pts := rfl
  simp only [e3, e4, List.length_map]
  by_cases h3 : pts.length < 3
  · rw [if_pos h3, if_pos h3]; rfl
  · rw [if_neg h3, if_neg h3]
    have key : ∀ (l : List (ℕ × ℕ)) (s : List (Vec (FP double)) × List (Seg (FP double))), (∀ e ∈ l, e ∈ directPairs pts.length) →
        l.foldl (directStep (pts.map Vec.exact)) (s.1.map Vec.exact, s.2.map Seg.exact) =
        ((l.foldl (directStep pts) s).1.map Vec.exact, (l.foldl (directStep pts) s).2.map Seg.exact) := by
      intro l
      induction l with
      | nil => intro s _; rfl
      | cons i l ih =>
        intro s hl
        rw [List.foldl_cons, hD _ _ (hl i List.mem_cons_self), ih _ (fun e he => hl e (List.mem_cons_of_mem _ he)), List.foldl_cons]
    have k1 := key (directPairs pts.length) ([], []) (fun _ h => h)
    simp only [List.map_nil] at k1
    rw [k1]
    have hg := directStep_mem h (directPairs pts.length) (fun e he => by have := mem_directPairs.mp he; omega) ([], []) (by simp)
    generalize (directPairs pts.length).foldl (directStep pts) ([], []) = s at hg
    unfold Obj.exact
    simp only [List.length_map]
    congr 1
    split_ifs with hp
    · rw [← list2set_exact]
      congr 1
      exact exactSort_map srt hg
    · rfl

/-- No three points of the list (at different positions) are on a line. -/
def Spec.NoThreeCollinear (l : List Pt) : Prop :=
  ∀ i j k (hi : i < l.length) (hj : j < l.length) (hk : k < l.length), i ≠ j → i ≠ k → j ≠ k → ¬ Collinear3 l[i] l[j] l[k]

theorem collinear3_iff (a b c : Pt) : Collinear3 a b c ↔ area2 a b c = 0 := by
  have h := (C41_signed_area ⟨a.1, a.2, true⟩ ⟨b.1, b.2, true⟩ ⟨c.1, c.2, true⟩ ⟨a.1, a.2, true⟩).2.2.2.2.2.2.1
  rw [Tri.dsa_real] at h
  exact h.symm

theorem grid_genPos {k : ℤ} (hk : -9 ≤ k) {pts : List (Vec (FP double))} (h : ∀ v ∈ pts, v.OnGrid k)
    (hn : NoThreeCollinear (pts.map Vec.fpt)) : GenPos ((pts.map Vec.exact).map Vec.pt) EPSILON := by
  rw [map_exact_pt]
  intro i j l hi hj hl h1 h2 h3
  have hz := hn i j l hi hj hl h1 h2 h3
  rw [collinear3_iff] at hz
  simp only [List.getElem_map] at hz ⊢
  exact area2_gap hk (h _ (List.getElem_mem _)) (h _ (List.getElem_mem _)) (h _ (List.getElem_mem _)) hz

theorem Seg.exact_injective : Function.Injective Seg.exact := by
  intro s t h
  obtain ⟨a, b⟩ := s
  obtain ⟨c, e⟩ := t
  have h1 := congrArg Seg.origin h
  have h2 := congrArg Seg.terminal h
  rw [Seg.mk.injEq]
  exact ⟨Vec.exact_injective h1, Vec.exact_injective h2⟩

theorem grid_clockwise {k : ℤ} (hk : -9 ≤ k) (a b c : Vec (FP double)) (ha : a.OnGrid k) (hb : b.OnGrid k)
    (hc : c.OnGrid k) : isClockwise a.exact b.exact c.exact = isClockwise a b c := isClockwise_exact hk ha hb hc

theorem grid_before {k : ℤ} (hk : -9 ≤ k) (a b : Vec (FP double)) (ha : a.OnGrid k) (hb : b.OnGrid k) :
    before a.exact b.exact = beforeF a b := beforeF_exact hk ha hb

/-- **C124** The direct method in double precision, on a common grid, no three points on a line, whatever order the sort
leaves them in: the vertices
are those of gift wrapping (C123), each once, and the edges are those between consecutive ones, each once, directed clockwise
with no input point on the left. -/
theorem C124_direct (k : ℤ) (hk : -9 ≤ k) (pts : List (Vec (FP double))) (h3 : 3 ≤ pts.length)
    (h : ∀ v ∈ pts, v.OnGrid k) (hn : NoThreeCollinear (pts.map Vec.fpt)) (srt)
    (hs : ∀ lt l, (srt lt l).Perm l) (h' : Obj (FP double))
    (hc : compute srt (Obj.ofList pts) .direct = .ok h') :
    h'.vertices.Perm (wrapping (Obj.ofList pts)).vertices ∧
    h'.getEdges.Perm ((cyclicPairs (wrapping (Obj.ofList pts)).vertices).map (fun e => Seg.ofPoints e.2 e.1)) ∧
    (∀ s ∈ h'.getEdges, ∀ p ∈ pts, area2 s.origin.fpt s.terminal.fpt p.fpt ≤ 0) ∧
    convexHull ℝ {z | z ∈ h'.vertices.map Vec.fpt} = convexHull ℝ {z | z ∈ pts.map Vec.fpt} ∧
    {p | ∃ s ∈ h'.getEdges, p ∈ s.fpts} = outline ((wrapping (Obj.ofList pts)).vertices.map Vec.fpt) := by
  obtain rfl : direct srt (Obj.ofList pts) = h' := by simpa [compute] using hc
  have hg := grid_genPos hk h hn
  have hl : 3 ≤ (pts.map Vec.exact).length := by simpa using h3
  obtain ⟨q1, q2, q3⟩ := C114_edges (pts.map Vec.exact) hl hg (exactSort (Vec.OnGrid k) srt) _ rfl
  have q4 := C114_vertices (pts.map Vec.exact) hl hg (exactSort (Vec.OnGrid k) srt) (exactSort_perm hs) _ rfl
  have q5 := (C78_convex_hull (pts.map Vec.exact) hl (hg.hull hl)).2
  rw [(wrapping_exact hk pts h).1] at q1 q3 q4 q5
  rw [direct_exact srt h (fun s ij _ => directStep_exact hk h s ij)] at q1 q2 q3 q4
  rw [Obj.exact_vertices] at q4
  rw [map_exact_pt] at q3 q5
  rw [map_exact_pt] at q5
  have ee : (direct srt (Obj.ofList pts)).exact.getEdges = (direct srt (Obj.ofList pts)).getEdges.map Seg.exact := rfl
  rw [ee] at q1 q2 q3
  have p4 := (List.map_perm_map_iff Vec.exact_injective).mp q4
  refine ⟨p4, ?_, ?_, ?_, ?_⟩
  · rw [← List.map_perm_map_iff Seg.exact_injective]
    refine q1.trans ?_
    rw [cyclicPairs_map, List.map_map, List.map_map]
    exact List.Perm.refl _
  · intro s hs p hp
    exact q2 _ (List.mem_map_of_mem hs) _ (List.mem_map_of_mem hp)
  · rw [← q5]
    congr 1
    ext z
    exact (p4.map Vec.fpt).mem_iff
  · rw [← q3]
    ext z
    simp only [Set.mem_ofPred_eq, List.mem_map]
    constructor
    · rintro ⟨s, hs, hz⟩; exact ⟨_, ⟨s, hs, rfl⟩, hz⟩
    · rintro ⟨_, ⟨s, hs, rfl⟩, hz⟩; exact ⟨s, hs, hz⟩

/-- **C125** The Graham scan in double precision, on a common grid, no three points on a line, with the origin among the points
and no point above it, with any sort: the scan ends without an exception, its vertices are input points, first the origin, the
others clockwise about it; in reverse order they are the corners of a strictly convex polygon with the hull of the input, and
the edges are its outline. -/
theorem C125_graham (k : ℤ) (hk : -9 ≤ k) (pts : List (Vec (FP double))) (h3 : 3 ≤ pts.length)
    (h : ∀ v ∈ pts, v.OnGrid k) (hn : NoThreeCollinear (pts.map Vec.fpt)) (srt) (hs : Spec.Sorts srt)
    (o : Vec (FP double)) (ho : o ∈ pts) (h0 : o.fpt = 0) (hy : ∀ p ∈ pts, p.y.val ≤ 0) :
    ∃ h', compute srt (Obj.ofList pts) .graham = .ok h' ∧ (∀ v ∈ h'.vertices, v ∈ pts) ∧
      (∃ r, h'.vertices = o :: r ∧ r.Pairwise (fun a b => area2 o.fpt a.fpt b.fpt < 0)) ∧
      StrictConvex (h'.vertices.map Vec.fpt).reverse ∧
      convexHull ℝ {z | z ∈ h'.vertices.map Vec.fpt} = convexHull ℝ {z | z ∈ pts.map Vec.fpt} ∧
      {p | ∃ s ∈ h'.getEdges, p ∈ s.fpts} = outline (h'.vertices.map Vec.fpt) := by
  have hg := grid_genPos hk h hn
  have hl : 3 ≤ (pts.map Vec.exact).length := by simpa using h3
  have hs' := exactSort_sorts (grid_before hk) hs
  obtain ⟨H, hH, m1, ⟨r, m2, m3⟩, m4, m5, m6⟩ := C113_graham_partial (pts.map Vec.exact) hl hg (exactSort (Vec.OnGrid k) srt) hs' o.exact
    (List.mem_map_of_mem ho) h0 (by
      intro p hp
      obtain ⟨v, hv, rfl⟩ := List.mem_map.mp hp
      exact hy v hv)
  have e : compute (exactSort (Vec.OnGrid k) srt) (Obj.ofList (pts.map Vec.exact)) .graham =
      (compute srt (Obj.ofList pts) .graham).map Obj.exact := graham_exact (grid_clockwise hk) (fun lt l => (hs lt l).1) h
  rw [e] at hH
  cases hc : compute srt (Obj.ofList pts) .graham with
  | error x => rw [hc] at hH; simp [Except.map] at hH
  | ok h' =>
    rw [hc] at hH
    simp only [Except.map, Except.ok.injEq] at hH
    subst hH
    rw [Obj.exact_vertices] at m1 m2 m4 m5 m6
    rw [map_exact_pt] at m4 m5 m6
    rw [map_exact_pt] at m5
    refine ⟨h', rfl, ?_, ?_, m4, m5, ?_⟩
    · intro w hw
      obtain ⟨z, hz, hzw⟩ := List.mem_map.mp (m1 _ (List.mem_map_of_mem hw))
      rwa [← Vec.exact_injective hzw]
    · obtain ⟨w, s, e1, e2, e3⟩ := List.map_eq_cons_iff.mp m2
      have := Vec.exact_injective e2
      subst this
      refine ⟨s, e1, ?_⟩
      rw [← e3, List.pairwise_map] at m3
      exact m3
    · rw [← m6]
      ext z
      have ee : h'.exact.getEdges = h'.getEdges.map Seg.exact := rfl
      rw [ee]
      simp only [Set.mem_ofPred_eq, List.mem_map]
      constructor
      · rintro ⟨s, hs, hz⟩; exact ⟨_, ⟨s, hs, rfl⟩, hz⟩
      · rintro ⟨_, ⟨s, hs, rfl⟩, hz⟩; exact ⟨s, hs, hz⟩

/-- **C125** Under the same guard the direct method returns the vertices in the same order. -/
theorem C125_direct_order (k : ℤ) (hk : -9 ≤ k) (pts : List (Vec (FP double))) (h3 : 3 ≤ pts.length)
    (h : ∀ v ∈ pts, v.OnGrid k) (hn : NoThreeCollinear (pts.map Vec.fpt)) (srt) (hs : Spec.Sorts srt)
    (o : Vec (FP double)) (ho : o ∈ pts) (h0 : o.fpt = 0) (hy : ∀ p ∈ pts, p.y.val ≤ 0) :
    ∃ hd hgr, compute srt (Obj.ofList pts) .direct = .ok hd ∧ compute srt (Obj.ofList pts) .graham = .ok hgr ∧
      hd.vertices = hgr.vertices := by
  have hg := grid_genPos hk h hn
  have hl : 3 ≤ (pts.map Vec.exact).length := by simpa using h3
  have hs' := exactSort_sorts (grid_before hk) hs
  obtain ⟨hd, hgr, c1, c2, c3, -⟩ := C116_order_partial (pts.map Vec.exact) hl hg (exactSort (Vec.OnGrid k) srt) hs' o.exact
    (List.mem_map_of_mem ho) h0 (by
      intro p hp
      obtain ⟨v, hv, rfl⟩ := List.mem_map.mp hp
      exact hy v hv)
  obtain ⟨h', hok, -⟩ := C125_graham k hk pts h3 h hn srt hs o ho h0 hy
  refine ⟨_, h', rfl, hok, ?_⟩
  have e : compute (exactSort (Vec.OnGrid k) srt) (Obj.ofList (pts.map Vec.exact)) .graham =
      (compute srt (Obj.ofList pts) .graham).map Obj.exact := graham_exact (grid_clockwise hk) (fun lt l => (hs lt l).1) h
  have e' : compute (exactSort (Vec.OnGrid k) srt) (Obj.ofList (pts.map Vec.exact)) .direct =
      .ok (direct srt (Obj.ofList pts)).exact := by
    rw [← direct_exact srt h (fun s ij _ => directStep_exact hk h s ij)]; rfl
  rw [e, hok] at c2
  rw [e'] at c1
  simp only [Except.map, Except.ok.injEq] at c1 c2
  rw [← c1, ← c2, Obj.exact_vertices, Obj.exact_vertices] at c3
  exact Vec.exact_injective.list_map c3

/-- Four points at and below the origin. -/
noncomputable def gridFour : List (Vec (FP double)) :=
  [gridVec 1 (-2), gridVec (-33554432) (-3), gridVec 0 0, gridVec 33554432 (-33554431)]

theorem gridFour_ok : (∀ v ∈ gridFour, v.OnGrid 0) ∧ NoThreeCollinear (gridFour.map Vec.fpt) ∧
    ∀ p ∈ gridFour, p.y.val ≤ 0 := by
  refine ⟨?_, ?_, ?_⟩
  · intro v hv
    simp only [gridFour, List.mem_cons, List.not_mem_nil, or_false] at hv
    rcases hv with rfl | rfl | rfl | rfl <;> exact gridVec_onGrid (by norm_num) (by norm_num)
  · have e : gridFour.map Vec.fpt = [(1, -2), (-33554432, -3), (0, 0), (33554432, -33554431)] := by
      simp [gridFour, Vec.fpt, gridVec, Vec.ofXY]
    rw [e]
    intro i j l hi hj hl h1 h2 h3
    rw [collinear3_iff]
    simp only [List.length_cons, List.length_nil] at hi hj hl
    interval_cases i <;> interval_cases j <;> interval_cases l <;> first
      | (exfalso; omega)
      | norm_num [area2]
  · intro v hv
    simp only [gridFour, List.mem_cons, List.not_mem_nil, or_false] at hv
    rcases hv with rfl | rfl | rfl | rfl <;> norm_num [gridVec, Vec.ofXY]

/-- C125: the hypotheses hold for `gridFour`, so the scan succeeds and starts at the origin. -/
example (srt) (hs : Spec.Sorts srt) : ∃ h', compute srt (Obj.ofList gridFour) .graham = .ok h' ∧
    h'.vertices.head? = some (gridVec 0 0) := by
  obtain ⟨h', e, -, ⟨r, hr, -⟩, -⟩ := C125_graham 0 (by norm_num) gridFour (by simp [gridFour]) gridFour_ok.1 gridFour_ok.2.1
    srt hs (gridVec 0 0) (by simp [gridFour]) (by simp [Vec.fpt, gridVec, Vec.ofXY]) gridFour_ok.2.2
  exact ⟨h', e, by rw [hr]; rfl⟩

end PyrusGeom
