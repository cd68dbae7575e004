import Verif.Props.FloatRobustPoly
import Verif.Props.FloatHull

/-! # Property C137: gift wrapping for arbitrary doubles -/

namespace PyrusGeom
open Spec Hull

/-- No point is repeated, and no three points are nearly on a line: twice the area of any three different points is larger
than `0.000002` (twice the tolerance of the code) plus the rounding error of the two products it is made of. -/
structure Spec.ClearPos (l : List Pt) : Prop where
  nodup : l.Nodup
  clear : ∀ a ∈ l, ∀ b ∈ l, ∀ c ∈ l, a ≠ b → a ≠ c → b ≠ c →
    (2 : ℝ) ^ (-50 : ℤ) * (|(a.1 - c.1) * (b.2 - c.2)| + |(b.1 - c.1) * (c.2 - a.2)|) + (2 : ℝ) ^ (-1073 : ℤ) + 2 / 1000000 <
      |cross (b - a) (c - a)|

theorem fp_EPSILON_le : (EPSILON : FP double).val ≤ 2 / 1000000 := by
  have e : (EPSILON : FP double).val = rne (1 / 1000000) := by
    change rne (rne ((1 : ℕ) : ℝ) / rne ((1000000 : ℕ) : ℝ)) = _
    rw [rne_of_isDouble (isDouble_nat (n := 1) (by norm_num)), rne_of_isDouble (isDouble_nat (n := 1000000) (by norm_num))]
    norm_num
  rw [e]
  have := (abs_le.mp (rne_rel_error (x := 1 / 1000000) (by
    rw [abs_of_pos (by norm_num)]
    exact le_trans (zpow_le_zpow_right₀ (by norm_num) (show (-1022 : ℤ) ≤ -20 by norm_num)) (by norm_num)))).2
  rw [abs_of_pos (by norm_num)] at this
  norm_num at this ⊢
  linarith

theorem fp_dsa_error {a b c : Vec (FP double)} (ha : a.FOk) (hb : b.FOk) (hc : c.FOk) :
    |(Tri.dsa a b c).val - cross (b.fpt - a.fpt) (c.fpt - a.fpt)| ≤
      (2 : ℝ) ^ (-50 : ℤ) * (|(a.x.val - c.x.val) * (b.y.val - c.y.val)| + |(b.x.val - c.x.val) * (c.y.val - a.y.val)|) +
        (2 : ℝ) ^ (-1073 : ℤ) := by
  have h1 := rne_prod_error ha.1 hc.1 hb.2 hc.2
  have h2 := rne_prod_error hb.1 hc.1 hc.2 ha.2
  have h3 := rne_sum_prod_error (isDouble_rne _) (isDouble_rne _) h1 h2
  have e : (a.x.val - c.x.val) * (b.y.val - c.y.val) + (b.x.val - c.x.val) * (c.y.val - a.y.val) =
      cross (b.fpt - a.fpt) (c.fpt - a.fpt) := by
    simp only [cross, Vec.fpt, Prod.fst_sub, Prod.snd_sub]; ring
  rw [e] at h3
  exact h3

/-- The tests of the three hull methods on three points of the list. -/
theorem fp_dsa_tests_clear {l : List (Vec (FP double))} (hl : ∀ v ∈ l, v.FOk) (hc : ClearPos (l.map Vec.fpt))
    {a b c : Vec (FP double)} (ha : a ∈ l) (hb : b ∈ l) (hc' : c ∈ l) (h1 : a.fpt ≠ b.fpt) (h2 : a.fpt ≠ c.fpt)
    (h3 : b.fpt ≠ c.fpt) :
    ((Tri.dsa a b c < num 0) ↔ Tri.dsa a.exact b.exact c.exact < num 0) ∧
    ((Tri.dsa a b c < EPSILON) ↔ Tri.dsa a b c < num 0) ∧
    ((Tri.dsa a.exact b.exact c.exact < EPSILON) ↔ Tri.dsa a.exact b.exact c.exact < num 0) := by
  have hm := hc.clear _ (List.mem_map_of_mem (f := Vec.fpt) ha) _ (List.mem_map_of_mem (f := Vec.fpt) hb) _
    (List.mem_map_of_mem (f := Vec.fpt) hc') h1 h2 h3
  have he := fp_dsa_error (hl _ ha) (hl _ hb) (hl _ hc')
  have hE := fp_EPSILON.1
  have hE' := fp_EPSILON_le
  have ea : Tri.dsa a.exact b.exact c.exact = cross (b.fpt - a.fpt) (c.fpt - a.fpt) := by
    rw [Tri.dsa_real]; rfl
  rw [fp_lt_zero, FP.lt_def, ea, num_real, Nat.cast_zero, EPSILON_real]
  have hm' : |(Tri.dsa a b c).val - cross (b.fpt - a.fpt) (c.fpt - a.fpt)| + 2 / 1000000 <
      |cross (b.fpt - a.fpt) (c.fpt - a.fpt)| := lt_of_le_of_lt (add_le_add he le_rfl) hm
  clear hm he
  generalize (Tri.dsa a b c).val = s at *
  generalize cross (b.fpt - a.fpt) (c.fpt - a.fpt) = t at *
  have q1 := neg_abs_le (s - t)
  have q2 := le_abs_self (s - t)
  rcases abs_cases t with ⟨h5, h6⟩ | ⟨h5, h6⟩ <;> rw [h5] at hm'
  · refine ⟨?_, ?_, ?_⟩ <;> constructor <;> intro <;> linarith
  · refine ⟨?_, ?_, ?_⟩ <;> constructor <;> intro <;> linarith

/-- Areas with a repeated point are exactly zero. -/
theorem fp_dsa_repeat {a b c : Vec (FP double)} (h : a.fpt = b.fpt ∨ b.fpt = c.fpt ∨ a.fpt = c.fpt) :
    (Tri.dsa a b c).val = 0 ∧ Tri.dsa a.exact b.exact c.exact = 0 := by
  have ev : (Tri.dsa a b c).val = rne (rne (rne (a.x.val - c.x.val) * rne (b.y.val - c.y.val)) +
      rne (rne (b.x.val - c.x.val) * rne (c.y.val - a.y.val))) := rfl
  rw [ev, Tri.dsa_real]
  change _ ∧ area2 a.fpt b.fpt c.fpt = 0
  rcases h with h | h | h
  · have h1 : a.x.val = b.x.val := congrArg Prod.fst h
    have h2 : a.y.val = b.y.val := congrArg Prod.snd h
    refine ⟨?_, by rw [h]; simp only [area2]; ring⟩
    rw [h1, h2, ← neg_sub b.y.val c.y.val, rne_neg, mul_neg, rne_neg, add_neg_cancel, rne_zero]
  · have h1 : b.x.val = c.x.val := congrArg Prod.fst h
    have h2 : b.y.val = c.y.val := congrArg Prod.snd h
    refine ⟨?_, by rw [h]; simp only [area2]; ring⟩
    rw [h1, h2]; simp [rne_zero]
  · have h1 : a.x.val = c.x.val := congrArg Prod.fst h
    have h2 : a.y.val = c.y.val := congrArg Prod.snd h
    refine ⟨?_, by rw [h]; simp only [area2]; ring⟩
    rw [h1, h2]; simp [rne_zero]

theorem fp_dist2_nonneg (u v : Vec (FP double)) : 0 ≤ (u.dist2 v).val := by
  rw [fp_dist2]
  exact rne_nonneg (add_nonneg (rne_nonneg (mul_self_nonneg _)) (rne_nonneg (mul_self_nonneg _)))

theorem fp_dist2_self (v : Vec (FP double)) : (v.dist2 v).val = 0 := by
  change rne (rne (rne (v.x.val - v.x.val) * rne (v.x.val - v.x.val)) + rne (rne (v.y.val - v.y.val) * rne (v.y.val - v.y.val))) = 0
  simp [rne_zero]

theorem at'_mem {l : List (Vec (FP double))} {i : ℕ} (h : i < l.length) : at' l i ∈ l := by
  unfold at'
  rw [List.getD_eq_getElem?_getD, List.getElem?_eq_getElem h]
  exact List.getElem_mem h

theorem at'_fpt_inj {l : List (Vec (FP double))} (hn : (l.map Vec.fpt).Nodup) {i j : ℕ} (hi : i < l.length)
    (hj : j < l.length) (h : (at' l i).fpt = (at' l j).fpt) : i = j := by
  have e : ∀ {i : ℕ} (hi : i < l.length), (at' l i).fpt = (l.map Vec.fpt)[i]'(by simpa using hi) := by
    intro i hi
    unfold at'
    rw [List.getD_eq_getElem?_getD, List.getElem?_eq_getElem hi, List.getElem_map]; rfl
  rw [e hi, e hj] at h
  exact (List.Nodup.getElem_inj_iff hn).mp h

theorem candStep_clear {l : List (Vec (FP double))} (hl : ∀ v ∈ l, v.FOk) (hc : ClearPos (l.map Vec.fpt)) {cur cand i : ℕ}
    (h1 : cur < l.length) (h2 : cand < l.length) (h3 : i < l.length) (used : List ℕ) :
    candStep (l.map Vec.exact) cur (at' l cur).exact used cand i = candStep l cur (at' l cur) used cand i := by
  unfold candStep
  simp only [at'_exact]
  by_cases h0 : (i == cur || used.contains i) = true
  · rw [if_pos h0, if_pos h0]
  rw [if_neg h0, if_neg h0]
  have hic : i ≠ cur := by
    rintro rfl; simp at h0
  by_cases hd : (at' l cur).fpt = (at' l cand).fpt ∨ (at' l cand).fpt = (at' l i).fpt
  · obtain ⟨z1, z2⟩ := fp_dsa_repeat (hd.imp_right .inl)
    have n1 : ¬ Tri.dsa (at' l cur) (at' l cand) (at' l i) < num 0 := by rw [fp_lt_zero, z1]; exact lt_irrefl _
    have n2 : ¬ Tri.dsa (at' l cur).exact (at' l cand).exact (at' l i).exact < num 0 := by
      rw [z2]; simp
    rw [if_neg n1, if_neg n2]
    have hdist : ¬ (at' l cur).dist2 (at' l i) < (at' l cur).dist2 (at' l cand) ∧
        ¬ (at' l cur).exact.dist2 (at' l i).exact < (at' l cur).exact.dist2 (at' l cand).exact := by
      rcases hd with hd | hd
      · have := at'_fpt_inj hc.nodup h1 h2 hd
        subst this
        refine ⟨?_, ?_⟩
        · rw [FP.lt_def, fp_dist2_self]; exact not_lt.mpr (fp_dist2_nonneg _ _)
        · simp only [Vec.dist2, PyrusGeom.sq, sub_self, mul_zero, add_zero]
          exact not_lt.mpr (add_nonneg (mul_self_nonneg _) (mul_self_nonneg _))
      · have := at'_fpt_inj hc.nodup h2 h3 hd
        subst this
        exact ⟨by rw [FP.lt_def]; exact lt_irrefl _, lt_irrefl _⟩
    rw [decide_eq_false hdist.1, decide_eq_false hdist.2, Bool.and_false, Bool.and_false]
  · push Not at hd
    have hne : (at' l cur).fpt ≠ (at' l i).fpt := fun h => hic (at'_fpt_inj hc.nodup h1 h3 h).symm
    obtain ⟨t1, t2, t3⟩ := fp_dsa_tests_clear hl hc (at'_mem h1) (at'_mem h2) (at'_mem h3) hd.1 hne hd.2
    by_cases hneg : Tri.dsa (at' l cur) (at' l cand) (at' l i) < num 0
    · rw [if_pos hneg, if_pos (t1.mp hneg)]
    · have hneg' := fun h => hneg (t1.mpr h)
      rw [if_neg hneg, if_neg hneg', decide_eq_false (fun h => hneg (t2.mp h)), decide_eq_false (fun h => hneg' (t3.mp h))]
      rfl

theorem candStep_lt {K : Type} [Add K] [Sub K] [Mul K] [Div K] [Neg K] [NatCast K] [LT K] [LE K] [DecidableLT K]
    [DecidableLE K] [BEq K] [PyMath K] (l : List (Vec K)) (cur : ℕ) (p : Vec K) (used : List ℕ) {n cand i : ℕ} (h2 : cand < n)
    (h3 : i < n) : candStep l cur p used cand i < n := by
  unfold candStep
  simp only
  split_ifs <;> assumption

theorem nextIndex_clear {l : List (Vec (FP double))} (hl : ∀ v ∈ l, v.FOk) (hc : ClearPos (l.map Vec.fpt)) {cur : ℕ}
    (h1 : cur < l.length) (used : List ℕ) :
    nextIndex (l.map Vec.exact) cur used = nextIndex l cur used ∧ nextIndex l cur used < l.length := by
  unfold nextIndex
  simp only [List.length_map, at'_exact]
  have hc0 : firstCandidate l.length cur used < l.length := by
    unfold firstCandidate
    cases hf : (List.range l.length).find? (fun i => !(i == cur || used.contains i)) with
    | none => simp; omega
    | some i => simpa using List.mem_range.mp (List.mem_of_find?_eq_some hf)
  have key : ∀ (is : List ℕ) (cand : ℕ), cand < l.length → (∀ i ∈ is, i < l.length) →
      is.foldl (candStep (l.map Vec.exact) cur (at' l cur).exact used) cand =
        is.foldl (candStep l cur (at' l cur) used) cand ∧ is.foldl (candStep l cur (at' l cur) used) cand < l.length := by
    intro is
    induction is with
    | nil => intro cand h _; exact ⟨rfl, h⟩
    | cons i is ih =>
      intro cand h hi
      rw [List.foldl_cons, List.foldl_cons, candStep_clear hl hc h1 h (hi i List.mem_cons_self)]
      exact ih _ (candStep_lt l cur _ used h (hi i List.mem_cons_self)) (fun j hj => hi j (List.mem_cons_of_mem _ hj))
  refine key _ _ hc0 ?_
  intro i hi
  rw [List.mem_range'_1] at hi
  omega

theorem wrapLoop_clear {l : List (Vec (FP double))} (hl : ∀ v ∈ l, v.FOk) (hc : ClearPos (l.map Vec.fpt)) (m : ℕ)
    (fuel cur : ℕ) (h1 : cur < l.length) (used : List ℕ) (vs : List (Vec (FP double))) :
    wrapLoop (l.map Vec.exact) m fuel cur used (vs.map Vec.exact) = (wrapLoop l m fuel cur used vs).map Vec.exact := by
  induction fuel generalizing cur used vs with
  | zero => rfl
  | succ fuel ih =>
    unfold wrapLoop
    obtain ⟨e1, e2⟩ := nextIndex_clear hl hc h1 used
    simp only [e1, at'_exact]
    have e : vs.map Vec.exact ++ [(at' l (nextIndex l cur used)).exact] =
        (vs ++ [at' l (nextIndex l cur used)]).map Vec.exact := by simp
    rw [e]
    split_ifs
    · rfl
    · exact ih _ e2 _ _

theorem minPointIndex_lt (l : List (Vec (FP double))) (h : 0 < l.length) : (minPointIndex l).toNat < l.length := by
  have key : ∀ (is : List ℕ) (s : ℕ × Vec (FP double)), s.1 < l.length → (∀ i ∈ is, i < l.length) →
      (is.foldl (minStep l) s).1 < l.length := by
    intro is
    induction is with
    | nil => intro s h _; exact h
    | cons i is ih =>
      intro s h hi
      rw [List.foldl_cons]
      refine ih _ ?_ (fun j hj => hi j (List.mem_cons_of_mem _ hj))
      unfold minStep
      simp only
      split_ifs
      · exact hi i List.mem_cons_self
      · exact h
  unfold minPointIndex
  rw [if_neg (by omega)]
  exact key _ _ h (fun i hi => List.mem_range.mp hi)

theorem wrapping_clear (pts : List (Vec (FP double))) (hl : ∀ v ∈ pts, v.FOk) (hc : ClearPos (pts.map Vec.fpt)) :
    (wrapping (Obj.ofList (pts.map Vec.exact))).vertices = (wrapping (Obj.ofList pts)).vertices.map Vec.exact ∧
    (wrapping (Obj.ofList (pts.map Vec.exact))).getEdges = (wrapping (Obj.ofList pts)).getEdges.map Seg.exact := by
  have e1 : (Obj.ofList (pts.map Vec.exact)).clearResults = Obj.ofList (pts.map Vec.exact) := rfl
  have e2 : (Obj.ofList pts).clearResults = Obj.ofList pts := rfl
  unfold wrapping
  rw [e1, e2]
  have e3 : (Obj.ofList (pts.map Vec.exact)).input = pts.map Vec.exact := rfl
  have e4 : (Obj.ofList pts).input = pts := rfl
  simp only [e3, e4, List.length_map, minPointIndex_exact]
  split_ifs with hs
  · exact ⟨rfl, rfl⟩
  · have hlen : 0 < pts.length := by
      simp only [Bool.or_eq_true, decide_eq_true_eq, beq_iff_eq, not_or] at hs
      omega
    have := wrapLoop_clear hl hc (minPointIndex pts).toNat (pts.length + 1) (minPointIndex pts).toNat
      (minPointIndex_lt pts hlen) [] [at' pts (minPointIndex pts).toNat]
    simp only [List.map_cons, List.map_nil] at this
    rw [at'_exact, this]
    refine ⟨?_, hullEdges_exact _⟩
    simp only [Obj.vertices, Bool.false_eq_true, if_false]
    rw [← List.map_dropLast]

theorem Spec.ClearPos.area_gt {l : List Pt} (hc : ClearPos l) {a b c : Pt} (ha : a ∈ l) (hb : b ∈ l) (hc' : c ∈ l)
    (h1 : a ≠ b) (h2 : a ≠ c) (h3 : b ≠ c) : EPSILON < |area2 a b c| := by
  have h := hc.clear a ha b hb c hc' h1 h2 h3
  have e : cross (b - a) (c - a) = area2 a b c := by simp only [cross, area2, Prod.fst_sub, Prod.snd_sub]
  rw [e] at h
  refine lt_of_le_of_lt ?_ h
  rw [EPSILON_real]
  have : (0 : ℝ) ≤ (2 : ℝ) ^ (-50 : ℤ) * (|(a.1 - c.1) * (b.2 - c.2)| + |(b.1 - c.1) * (c.2 - a.2)|) +
      (2 : ℝ) ^ (-1073 : ℤ) := by positivity
  exact le_trans (by norm_num) (add_le_add this (le_refl (2 / 1000000 : ℝ)))

theorem clear_hullPos {pts : List (Vec (FP double))} (hc : ClearPos (pts.map Vec.fpt)) :
    HullPos ((pts.map Vec.exact).map Vec.pt) EPSILON := by
  rw [map_exact_pt]
  have hne : ∀ {i j : ℕ} (hi : i < (pts.map Vec.fpt).length) (hj : j < (pts.map Vec.fpt).length), i ≠ j →
      (pts.map Vec.fpt)[i] ≠ (pts.map Vec.fpt)[j] := fun hi hj hij he =>
    hij ((List.Nodup.getElem_inj_iff hc.nodup).mp he)
  have hbig : ∀ a ∈ pts.map Vec.fpt, ∀ b ∈ pts.map Vec.fpt, ∀ c ∈ pts.map Vec.fpt, a ≠ b → a ≠ c → b ≠ c →
      EPSILON < |area2 a b c| := fun a ha b hb c hc' => hc.area_gt ha hb hc'
  refine ⟨?_, ?_, ?_⟩
  · intro i j hi hj hij
    exact (List.Nodup.getElem_inj_iff hc.nodup).mp hij
  · intro i j l hi hj hl hz
    refine (hbig _ (List.getElem_mem hi) _ (List.getElem_mem hj) _ (List.getElem_mem hl) ?_ ?_ ?_).le
    · intro h; rw [h] at hz; exact hz (by simp only [area2]; ring)
    · intro h; rw [h] at hz; exact hz (by simp only [area2]; ring)
    · intro h; rw [h] at hz; exact hz (by simp only [area2]; ring)
  · intro i j l hi hj hl h1 h2 h3 hz
    have := hbig _ (List.getElem_mem hi) _ (List.getElem_mem hj) _ (List.getElem_mem hl) (hne hi hj h1) (hne hi hl h2)
      (hne hj hl h3)
    rw [hz, abs_zero] at this
    exact absurd this (not_lt.mpr EPSILON_pos.le)

/-- **C137** Gift wrapping in double precision, for any doubles as coordinates: if no three points are nearly on a line, the
vertices are input points, the first one is the lowest of the leftmost ones, they are the corners of a strictly convex polygon
in counterclockwise order, and their convex hull is the convex hull of the input, without any error. -/
theorem C137_wrapping (pts : List (Vec (FP double))) (h3 : 3 ≤ pts.length) (hl : ∀ v ∈ pts, v.FOk)
    (hn : ClearPos (pts.map Vec.fpt)) (srt) (h' : Obj (FP double))
    (hc : compute srt (Obj.ofList pts) .wrapping = .ok h') :
    (∀ v ∈ h'.vertices, v ∈ pts) ∧
    (∃ v t, h'.vertices = v :: t ∧ ∀ p ∈ pts, ¬ LexLt p.fpt v.fpt) ∧
    StrictConvex (h'.vertices.map Vec.fpt) ∧
    convexHull ℝ {z | z ∈ h'.vertices.map Vec.fpt} = convexHull ℝ {z | z ∈ pts.map Vec.fpt} := by
  obtain rfl : wrapping (Obj.ofList pts) = h' := by simpa [compute] using hc
  have hg := clear_hullPos hn
  have hl3 : 3 ≤ (pts.map Vec.exact).length := by simpa using h3
  obtain ⟨q1, ⟨v, t, q2, q3⟩, -, -⟩ := C78_wrapping (pts.map Vec.exact) hl3 hg (fun _ l => l) _ rfl
  obtain ⟨q4, q5⟩ := C78_convex_hull (pts.map Vec.exact) hl3 hg
  have e := (wrapping_clear pts hl hn).1
  rw [e] at q1 q2 q4 q5
  rw [map_exact_pt] at q4 q5
  rw [map_exact_pt] at q5
  refine ⟨?_, ?_, q4, q5⟩
  · intro w hw
    obtain ⟨z, hz, hzw⟩ := List.mem_map.mp (q1 _ (List.mem_map_of_mem hw))
    rwa [← Vec.exact_injective hzw]
  · obtain ⟨w, s, e1, e2, -⟩ := List.map_eq_cons_iff.mp q2
    refine ⟨w, s, e1, ?_⟩
    intro p hp
    have := q3 _ (List.mem_map_of_mem (f := Vec.exact) hp)
    rwa [← e2] at this

/-- **C137** All other input points are strictly to the left of each edge of the computed polygon. -/
theorem C137_edges (pts : List (Vec (FP double))) (h3 : 3 ≤ pts.length) (hl : ∀ v ∈ pts, v.FOk)
    (hn : ClearPos (pts.map Vec.fpt)) :
    ∀ e ∈ cyclicPairs (wrapping (Obj.ofList pts)).vertices, ∀ p ∈ pts, p.fpt ≠ e.1.fpt → p.fpt ≠ e.2.fpt →
      2 / 1000000 < cross (e.2.fpt - e.1.fpt) (p.fpt - e.1.fpt) := by
  intro e he p hp n1 n2
  have hg := clear_hullPos hn
  have hl3 : 3 ≤ (pts.map Vec.exact).length := by simpa using h3
  obtain ⟨q1, -, hnd, q4⟩ := C78_wrapping (pts.map Vec.exact) hl3 hg (fun _ l => l) _ rfl
  have ev := (wrapping_clear pts hl hn).1
  rw [ev] at q1 q4 hnd
  rw [cyclicPairs_map] at q4
  have h0 := q4 _ (List.mem_map_of_mem he) _ (List.mem_map_of_mem (f := Vec.exact) hp)
  simp only [Prod.map_fst, Prod.map_snd, Vec.exact_pt] at h0
  obtain ⟨m1, -, hsc, -⟩ := C137_wrapping pts h3 hl hn (fun _ l => l) _ rfl
  have hne : e.1.fpt ≠ e.2.fpt := by
    refine hsc.ne (e := (e.1.fpt, e.2.fpt)) ?_
    rw [cyclicPairs_map]
    exact List.mem_map_of_mem he
  have hm := hn.clear _ (List.mem_map_of_mem (f := Vec.fpt) (m1 _ (fst_mem_of_cyclicPairs he))) _
    (List.mem_map_of_mem (f := Vec.fpt) (m1 _ (snd_mem_of_cyclicPairs he))) _ (List.mem_map_of_mem (f := Vec.fpt) hp) hne
    (Ne.symm n1) (Ne.symm n2)
  have ec : area2 e.1.fpt e.2.fpt p.fpt = cross (e.2.fpt - e.1.fpt) (p.fpt - e.1.fpt) := by
    simp only [cross, area2, Prod.fst_sub, Prod.snd_sub]
  rw [ec] at h0
  rw [abs_of_nonneg h0] at hm
  have : (0 : ℝ) ≤ (2 : ℝ) ^ (-50 : ℤ) * (|(e.1.fpt.1 - p.fpt.1) * (e.2.fpt.2 - p.fpt.2)| +
      |(e.2.fpt.1 - p.fpt.1) * (p.fpt.2 - e.1.fpt.2)|) + (2 : ℝ) ^ (-1073 : ℤ) := by positivity
  exact lt_of_le_of_lt (le_trans (by norm_num) (add_le_add this (le_refl (2 / 1000000 : ℝ)))) hm

/-- The square with corners at whole numbers, and the point (0.1, 0.1) that is not on a diagonal of it. -/
noncomputable def tenthHull : List (Vec (FP double)) := [gridVec 0 0, tenthVec, gridVec 1 (-1), gridVec 2 3]

theorem tenthHull_ok : (∀ v ∈ tenthHull, v.FOk) ∧ ClearPos (tenthHull.map Vec.fpt) := by
  have e : tenthHull.map Vec.fpt =
      [(0, 0), (3602879701896397 / 2 ^ 55, 3602879701896397 / 2 ^ 55), (1, -1), (2, 3)] := by
    simp only [tenthHull, List.map_cons, List.map_nil, tenthVec_fpt, gridVec_fpt]; norm_num
  constructor
  · intro v hv
    simp only [tenthHull, List.mem_cons, List.not_mem_nil, or_false] at hv
    rcases hv with rfl | rfl | rfl | rfl
    · exact (gridVec_fineOk (by norm_num) (by norm_num)).1
    · exact tenthVec_fineOk.1
    · exact (gridVec_fineOk (by norm_num) (by norm_num)).1
    · exact (gridVec_fineOk (by norm_num) (by norm_num)).1
  · rw [e]
    constructor
    · norm_num
    · intro a ha b hb c hc h1 h2 h3
      refine lt_of_le_of_lt (add_le_add (add_le_add le_rfl tiny_le) le_rfl) ?_
      simp only [List.mem_cons, List.not_mem_nil, or_false] at ha hb hc
      rcases ha with rfl | rfl | rfl | rfl <;> rcases hb with rfl | rfl | rfl | rfl <;>
        rcases hc with rfl | rfl | rfl | rfl <;>
        first
        | exact absurd rfl h1
        | exact absurd rfl h2
        | exact absurd rfl h3
        | norm_num [cross, abs_of_neg, abs_of_pos]

/-- C137: the hull of the four points. -/
example : convexHull ℝ {z | z ∈ (wrapping (Obj.ofList tenthHull)).vertices.map Vec.fpt} =
    convexHull ℝ {z | z ∈ tenthHull.map Vec.fpt} :=
  (C137_wrapping tenthHull (by simp [tenthHull]) tenthHull_ok.1 tenthHull_ok.2 (fun _ l => l) _ rfl).2.2.2

end PyrusGeom
