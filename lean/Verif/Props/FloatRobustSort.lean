import Verif.Props.FloatRobustHull
import Verif.Props.FloatHullSort

/-! # Properties C138, C139: the direct method and the Graham scan for arbitrary doubles -/

namespace PyrusGeom
open Spec Hull

theorem clear_genPos {pts : List (Vec (FP double))} (hc : ClearPos (pts.map Vec.fpt)) :
    GenPos ((pts.map Vec.exact).map Vec.pt) EPSILON := by
  rw [map_exact_pt]
  intro i j k hi hj hk h1 h2 h3
  have n1 : (pts.map Vec.fpt)[i] ≠ (pts.map Vec.fpt)[j] := fun h => h1 ((List.Nodup.getElem_inj_iff hc.nodup).mp h)
  have n2 : (pts.map Vec.fpt)[i] ≠ (pts.map Vec.fpt)[k] := fun h => h2 ((List.Nodup.getElem_inj_iff hc.nodup).mp h)
  have n3 : (pts.map Vec.fpt)[j] ≠ (pts.map Vec.fpt)[k] := fun h => h3 ((List.Nodup.getElem_inj_iff hc.nodup).mp h)
  exact (hc.area_gt (List.getElem_mem hi) (List.getElem_mem hj) (List.getElem_mem hk) n1 n2 n3).le

/-! ## The direct method -/

/-- A computed value and the exact value have the same sign and are both zero or not small. -/
def Agree (x y : ℝ) : Prop :=
  (x = 0 ∧ y = 0) ∨ ((2 : ℝ) ^ (-20 : ℤ) ≤ x ∧ (2 : ℝ) ^ (-20 : ℤ) ≤ y) ∨ (x ≤ -(2 : ℝ) ^ (-20 : ℤ) ∧ y ≤ -(2 : ℝ) ^ (-20 : ℤ))

theorem Agree.left {x y : ℝ} (h : Agree x y) : x ≤ -(2 : ℝ) ^ (-20 : ℤ) ∨ x = 0 ∨ (2 : ℝ) ^ (-20 : ℤ) ≤ x := by
  rcases h with h | h | h
  · exact .inr (.inl h.1)
  · exact .inr (.inr h.1)
  · exact .inl h.1

theorem Agree.neg_iff {x y : ℝ} (h : Agree x y) : x < 0 ↔ y < 0 := by
  have hp : (0 : ℝ) < (2 : ℝ) ^ (-20 : ℤ) := by positivity
  rcases h with ⟨rfl, rfl⟩ | h | h
  · rfl
  · constructor <;> intro <;> linarith [h.1, h.2]
  · constructor <;> intro <;> linarith [h.1, h.2]

theorem Agree.mul_neg_iff {x y z w : ℝ} (h : Agree x y) (h' : Agree z w) : rne (x * z) < 0 ↔ y * w < 0 := by
  have hp : (0 : ℝ) < (2 : ℝ) ^ (-20 : ℤ) := by positivity
  rw [rne_mul_neg_iff (u := (2 : ℝ) ^ (-20 : ℤ)) hp
    (by rw [← zpow_add₀ (by norm_num)]; exact isDouble_pow _ (by norm_num)) h.left h'.left]
  generalize (2 : ℝ) ^ (-20 : ℤ) = u at *
  have key : ∀ {x y : ℝ}, Agree x y → (x < 0 ↔ y < 0) ∧ (0 < x ↔ 0 < y) := by
    intro x y h
    refine ⟨h.neg_iff, ?_⟩
    have hp : (0 : ℝ) < (2 : ℝ) ^ (-20 : ℤ) := by positivity
    rcases h with ⟨rfl, rfl⟩ | h | h
    · rfl
    · constructor <;> intro <;> linarith [h.1, h.2]
    · constructor <;> intro <;> linarith [h.1, h.2]
  obtain ⟨a1, a2⟩ := key h
  obtain ⟨b1, b2⟩ := key h'
  rw [_root_.mul_neg_iff, _root_.mul_neg_iff, a1, a2, b1, b2]

/-- The computed outer product of the direct method for three different points. -/
theorem fp_outer_clear {l : List (Vec (FP double))} (hl : ∀ v ∈ l, v.FOk) (hc : ClearPos (l.map Vec.fpt))
    {a b c : Vec (FP double)} (ha : a ∈ l) (hb : b ∈ l) (hc' : c ∈ l) (h1 : a.fpt ≠ b.fpt) (h2 : a.fpt ≠ c.fpt)
    (h3 : b.fpt ≠ c.fpt) :
    Agree ((b.sub a).outerProduct (c.sub a)).val ((b.exact.sub a.exact).outerProduct (c.exact.sub a.exact)) ∧
    2 / 1000000 < |((b.sub a).outerProduct (c.sub a)).val| ∧
    2 / 1000000 < |(b.exact.sub a.exact).outerProduct (c.exact.sub a.exact)| := by
  have hm := hc.clear _ (List.mem_map_of_mem (f := Vec.fpt) hb) _ (List.mem_map_of_mem (f := Vec.fpt) hc') _
    (List.mem_map_of_mem (f := Vec.fpt) ha) h3 (Ne.symm h1) (Ne.symm h2)
  have he := fp_dsa_error (hl _ hb) (hl _ hc') (hl _ ha)
  have e1 : ((b.sub a).outerProduct (c.sub a)).val = (Tri.dsa b c a).val := fp_outer_eq_dsa a b c
  have e2 : (b.exact.sub a.exact).outerProduct (c.exact.sub a.exact) = cross (c.fpt - b.fpt) (a.fpt - b.fpt) := by
    simp only [Vec.outerProduct, Vec.sub, Vec.ofXY, cross, Vec.fpt, Vec.exact_x, Vec.exact_y, Prod.fst_sub, Prod.snd_sub]; ring
  rw [e1, e2]
  have hm' : |(Tri.dsa b c a).val - cross (c.fpt - b.fpt) (a.fpt - b.fpt)| + 2 / 1000000 <
      |cross (c.fpt - b.fpt) (a.fpt - b.fpt)| := lt_of_le_of_lt (add_le_add he le_rfl) hm
  clear hm he
  generalize (Tri.dsa b c a).val = s at *
  generalize cross (c.fpt - b.fpt) (a.fpt - b.fpt) = t at *
  have q1 := neg_abs_le (s - t)
  have q2 := le_abs_self (s - t)
  have q3 := abs_nonneg (s - t)
  have hp : (2 : ℝ) ^ (-20 : ℤ) ≤ 2 / 1000000 := by norm_num
  unfold Agree
  generalize (2 : ℝ) ^ (-20 : ℤ) = u at *
  rcases abs_cases t with ⟨h5, h6⟩ | ⟨h5, h6⟩ <;> rw [h5] at hm' ⊢
  · refine ⟨.inr (.inl ⟨?_, ?_⟩), ?_, ?_⟩
    · linarith
    · linarith
    · exact lt_of_lt_of_le (by linarith) (le_abs_self s)
    · linarith
  · refine ⟨.inr (.inr ⟨?_, ?_⟩), ?_, ?_⟩
    · linarith
    · linarith
    · exact lt_of_lt_of_le (by linarith) (neg_le_abs s)
    · linarith

theorem directK_clear {pts : List (Vec (FP double))} (hl : ∀ v ∈ pts, v.FOk) (hc : ClearPos (pts.map Vec.fpt)) {i j : ℕ}
    (hi : i < pts.length) (hj : j < pts.length) (hij : i ≠ j) (ks : List ℕ) (hks : ∀ k ∈ ks, k < pts.length) :
    ∀ (last : FP double) (last' : ℝ), Agree last.val last' →
      (directK (pts.map Vec.exact) i j ((at' pts j).exact.sub (at' pts i).exact) (at' pts i).exact ks last').map
          (fun x => decide (x < 0)) =
        (directK pts i j ((at' pts j).sub (at' pts i)) (at' pts i) ks last).map (fun x => decide (x.val < 0)) := by
  induction ks with
  | nil =>
    intro last last' h
    change some (decide (last' < 0)) = some (decide (last.val < 0))
    rw [decide_eq_decide.mpr h.neg_iff]
  | cons m ks ih =>
    intro last last' h
    have ih := ih (fun k hk => hks k (List.mem_cons_of_mem _ hk))
    have hm := hks m List.mem_cons_self
    unfold directK
    by_cases hmij : (m == i || m == j) = true
    · rw [if_pos hmij, if_pos hmij]; exact ih _ _ h
    · rw [if_neg hmij, if_neg hmij, at'_exact]
      simp only [Bool.or_eq_true, beq_iff_eq, not_or] at hmij
      have n1 : (at' pts i).fpt ≠ (at' pts j).fpt := fun h => hij (at'_fpt_inj hc.nodup hi hj h)
      have n2 : (at' pts i).fpt ≠ (at' pts m).fpt := fun h => hmij.1 (at'_fpt_inj hc.nodup hi hm h).symm
      have n3 : (at' pts j).fpt ≠ (at' pts m).fpt := fun h => hmij.2 (at'_fpt_inj hc.nodup hj hm h).symm
      obtain ⟨g1, g2, g3⟩ := fp_outer_clear hl hc (at'_mem hi) (at'_mem hj) (at'_mem hm) n1 n2 n3
      simp only
      have t1 : ¬ fabs (((at' pts j).sub (at' pts i)).outerProduct ((at' pts m).sub (at' pts i))) < (EPSILON : FP double) := by
        rw [FP.lt_def, fp_fabs_val]
        have := fp_EPSILON_le
        exact not_lt.mpr (le_trans this g2.le)
      have t2 : ¬ fabs (((at' pts j).exact.sub (at' pts i).exact).outerProduct ((at' pts m).exact.sub (at' pts i).exact)) <
          (EPSILON : ℝ) := by
        rw [fabs_real, EPSILON_real]
        exact not_lt.mpr (le_trans (by norm_num) g3.le)
      have t1' : ¬ (fabs (((at' pts j).sub (at' pts i)).outerProduct ((at' pts m).sub (at' pts i))) < (EPSILON : FP double) ∧
          ((at' pts m).sub (at' pts i)).r2 < ((at' pts j).sub (at' pts i)).r2) := fun hh => t1 hh.1
      have t2' : ¬ (fabs (((at' pts j).exact.sub (at' pts i).exact).outerProduct ((at' pts m).exact.sub (at' pts i).exact)) <
          (EPSILON : ℝ) ∧ ((at' pts m).exact.sub (at' pts i).exact).r2 < ((at' pts j).exact.sub (at' pts i).exact).r2) :=
        fun hh => t2 hh.1
      rw [if_neg t1', if_neg t2']
      have t3 : ((((at' pts j).sub (at' pts i)).outerProduct ((at' pts m).sub (at' pts i))) * last < num 0) ↔
          (((at' pts j).exact.sub (at' pts i).exact).outerProduct ((at' pts m).exact.sub (at' pts i).exact)) * last' < num 0 := by
        rw [fp_lt_zero, num_real, Nat.cast_zero]
        exact g1.mul_neg_iff h
      by_cases c2 : ((at' pts j).sub (at' pts i)).outerProduct ((at' pts m).sub (at' pts i)) * last < num 0
      · rw [if_pos c2, if_pos (t3.mp c2)]; rfl
      · rw [if_neg c2, if_neg (fun hh => c2 (t3.mpr hh))]
        exact ih _ _ g1

theorem directStep_clear {pts : List (Vec (FP double))} (hl : ∀ v ∈ pts, v.FOk) (hc : ClearPos (pts.map Vec.fpt))
    (s : List (Vec (FP double)) × List (Seg (FP double))) (ij : ℕ × ℕ) (h : ij ∈ directPairs pts.length) :
    directStep (pts.map Vec.exact) (s.1.map Vec.exact, s.2.map Seg.exact) ij =
      ((directStep pts s ij).1.map Vec.exact, (directStep pts s ij).2.map Seg.exact) := by
  obtain ⟨h1, h2⟩ := mem_directPairs.mp h
  have hz : (num 0 : FP double).val = 0 := fp_zero
  have e := directK_clear hl hc (show ij.1 < pts.length by omega) h2 (by omega) (List.range pts.length)
    (fun k hk => List.mem_range.mp hk) (num 0) 0 (.inl ⟨hz, rfl⟩)
  unfold directStep
  simp only [at'_exact, List.length_map, num_real, Nat.cast_zero]
  cases hF : directK pts ij.1 ij.2 ((at' pts ij.2).sub (at' pts ij.1)) (at' pts ij.1) (List.range pts.length) (num 0) with
  | none =>
    rw [hF, Option.map_none, Option.map_eq_none_iff] at e
    rw [e]
  | some last =>
    rw [hF, Option.map_some, Option.map_eq_some_iff] at e
    obtain ⟨last', e1, e2⟩ := e
    rw [decide_eq_decide] at e2
    rw [e1]
    simp only [List.map_append, List.map_cons, List.map_nil, Prod.mk.injEq, true_and, List.append_cancel_left_eq,
      List.cons.injEq, and_true]
    by_cases hl : last < num 0
    · rw [if_pos hl, if_pos (e2.mpr ((fp_lt_zero last).mp hl))]; rfl
    · rw [if_neg hl, if_neg (fun hh => hl ((fp_lt_zero last).mpr (e2.mp hh)))]; rfl

/-- **C138** The direct method in double precision, for any doubles as coordinates, no three points nearly on a line, whatever
order the sort leaves them in: the vertices are those of gift wrapping (C137), each once, and the edges are those between
consecutive ones, each once, directed clockwise with no input point on the left. -/
theorem C138_direct (pts : List (Vec (FP double))) (h3 : 3 ≤ pts.length) (hl : ∀ v ∈ pts, v.FOk)
    (hn : ClearPos (pts.map Vec.fpt)) (srt) (hs : ∀ lt l, (srt lt l).Perm l) (h' : Obj (FP double))
    (hc : compute srt (Obj.ofList pts) .direct = .ok h') :
    h'.vertices.Perm (wrapping (Obj.ofList pts)).vertices ∧
    h'.getEdges.Perm ((cyclicPairs (wrapping (Obj.ofList pts)).vertices).map (fun e => Seg.ofPoints e.2 e.1)) ∧
    (∀ s ∈ h'.getEdges, ∀ p ∈ pts, area2 s.origin.fpt s.terminal.fpt p.fpt ≤ 0) ∧
    convexHull ℝ {z | z ∈ h'.vertices.map Vec.fpt} = convexHull ℝ {z | z ∈ pts.map Vec.fpt} ∧
    {p | ∃ s ∈ h'.getEdges, p ∈ s.fpts} = outline ((wrapping (Obj.ofList pts)).vertices.map Vec.fpt) := by
  obtain rfl : direct srt (Obj.ofList pts) = h' := by simpa [compute] using hc
  have hg := clear_genPos hn
  have hl3 : 3 ≤ (pts.map Vec.exact).length := by simpa using h3
  have hP : ∀ v ∈ pts, (fun _ => True) v := fun _ _ => trivial
  obtain ⟨q1, q2, q3⟩ := C114_edges (pts.map Vec.exact) hl3 hg (exactSort (fun _ => True) srt) _ rfl
  have q4 := C114_vertices (pts.map Vec.exact) hl3 hg (exactSort (fun _ => True) srt) (exactSort_perm hs) _ rfl
  have q5 := (C78_convex_hull (pts.map Vec.exact) hl3 (hg.hull hl3)).2
  rw [(wrapping_clear pts hl hn).1] at q1 q3 q4 q5
  rw [direct_exact srt hP (directStep_clear hl hn)] at q1 q2 q3 q4
  rw [Obj.exact_vertices] at q4
  rw [map_exact_pt] at q3 q5
  rw [map_exact_pt] at q5
  have ee : (direct srt (Obj.ofList pts)).exact.getEdges = (direct srt (Obj.ofList pts)).getEdges.map Seg.exact := rfl
  rw [ee] at q1 q2 q3
  have p4 := (List.map_perm_map_iff Vec.exact_injective).mp q4
  refine ⟨p4, ?_, ?_, ?_, ?_⟩
  · rw [← List.map_perm_map_iff Seg.exact_injective]
    refine q1.trans ?_
    rw [cyclicPairs_map, List.map_map, List.map_map]
    exact List.Perm.refl _
  · intro s hs p hp
    exact q2 _ (List.mem_map_of_mem hs) _ (List.mem_map_of_mem hp)
  · rw [← q5]
    congr 1
    ext z
    exact (p4.map Vec.fpt).mem_iff
  · rw [← q3]
    ext z
    simp only [Set.mem_ofPred_eq, List.mem_map]
    constructor
    · rintro ⟨s, hs, hz⟩; exact ⟨_, ⟨s, hs, rfl⟩, hz⟩
    · rintro ⟨_, ⟨s, hs, rfl⟩, hz⟩; exact ⟨s, hs, hz⟩

/-! ## The Graham scan -/

/-- Different points have a positive computed distance, if there is a third point and no coordinate is huge. -/
theorem fp_dist2_pos_clear {pts : List (Vec (FP double))} (h3 : 3 ≤ pts.length) (hn : ClearPos (pts.map Vec.fpt))
    (hM : ∀ v ∈ pts, |v.x.val| ≤ (2 : ℝ) ^ (500 : ℤ) ∧ |v.y.val| ≤ (2 : ℝ) ^ (500 : ℤ)) {u v : Vec (FP double)}
    (hu : u ∈ pts) (hv : v ∈ pts) (huv : u.fpt ≠ v.fpt) : 0 < (u.dist2 v).val := by
  obtain ⟨w, hw, hw1, hw2⟩ : ∃ w ∈ pts, u.fpt ≠ w.fpt ∧ v.fpt ≠ w.fpt := by
    by_contra hno
    push Not at hno
    have hsub : (pts.map Vec.fpt).toFinset ⊆ {u.fpt, v.fpt} := by
      intro z hz
      rw [List.mem_toFinset, List.mem_map] at hz
      obtain ⟨w, hw, rfl⟩ := hz
      rw [Finset.mem_insert, Finset.mem_singleton]
      by_cases h : u.fpt = w.fpt
      · exact .inl h.symm
      · exact .inr (hno w hw h).symm
    have h1 := Finset.card_le_card hsub
    rw [List.toFinset_card_of_nodup hn.nodup, List.length_map] at h1
    have h2 := Finset.card_le_two (a := u.fpt) (b := v.fpt)
    omega
  have hm := hn.clear _ (List.mem_map_of_mem (f := Vec.fpt) hu) _ (List.mem_map_of_mem (f := Vec.fpt) hv) _
    (List.mem_map_of_mem (f := Vec.fpt) hw) huv hw1 hw2
  have hm' : 2 / 1000000 < |cross (v.fpt - u.fpt) (w.fpt - u.fpt)| := by
    refine lt_of_le_of_lt ?_ hm
    exact le_trans (by norm_num) (add_le_add (a := (0 : ℝ)) (by positivity) (le_refl (2 / 1000000 : ℝ)))
  clear hm
  have hδ : (2 : ℝ) ^ (-530 : ℤ) * (4 * (2 : ℝ) ^ (500 : ℤ)) ≤ 2 / 1000000 := by
    have : (2 : ℝ) ^ (-530 : ℤ) * (4 * (2 : ℝ) ^ (500 : ℤ)) = (2 : ℝ) ^ (-28 : ℤ) := by
      rw [show (4 : ℝ) = (2 : ℝ) ^ (2 : ℤ) by norm_num, ← zpow_add₀ (by norm_num), ← zpow_add₀ (by norm_num)]
      norm_num
    rw [this]; norm_num
  have hbig : (2 : ℝ) ^ (-530 : ℤ) ≤ |u.x.val - v.x.val| ∨ (2 : ℝ) ^ (-530 : ℤ) ≤ |u.y.val - v.y.val| := by
    by_contra hno
    push Not at hno
    have e : |cross (v.fpt - u.fpt) (w.fpt - u.fpt)| ≤
        |u.x.val - v.x.val| * |w.y.val - u.y.val| + |u.y.val - v.y.val| * |w.x.val - u.x.val| := by
      have : cross (v.fpt - u.fpt) (w.fpt - u.fpt) =
          -((u.x.val - v.x.val) * (w.y.val - u.y.val)) + (u.y.val - v.y.val) * (w.x.val - u.x.val) := by
        simp only [cross, Vec.fpt, Prod.fst_sub, Prod.snd_sub]; ring
      rw [this]
      refine le_trans (abs_add_le _ _) ?_
      rw [abs_neg, abs_mul, abs_mul]
    have b1 : |w.y.val - u.y.val| ≤ 2 * (2 : ℝ) ^ (500 : ℤ) := by
      refine le_trans (abs_sub _ _) ?_
      rw [two_mul]; exact add_le_add (hM w hw).2 (hM u hu).2
    have b2 : |w.x.val - u.x.val| ≤ 2 * (2 : ℝ) ^ (500 : ℤ) := by
      refine le_trans (abs_sub _ _) ?_
      rw [two_mul]; exact add_le_add (hM w hw).1 (hM u hu).1
    have c1 := mul_le_mul hno.1.le b1 (abs_nonneg _) (by positivity)
    have c2 := mul_le_mul hno.2.le b2 (abs_nonneg _) (by positivity)
    have c3 := le_trans e (add_le_add c1 c2)
    have c4 : (2 : ℝ) ^ (-530 : ℤ) * (2 * (2 : ℝ) ^ (500 : ℤ)) + (2 : ℝ) ^ (-530 : ℤ) * (2 * (2 : ℝ) ^ (500 : ℤ)) =
        (2 : ℝ) ^ (-530 : ℤ) * (4 * (2 : ℝ) ^ (500 : ℤ)) := by ring
    rw [c4] at c3
    exact absurd (lt_of_lt_of_le hm' (le_trans c3 hδ)) (lt_irrefl _)
  have key : ∀ t : ℝ, (2 : ℝ) ^ (-530 : ℤ) ≤ |t| → (2 : ℝ) ^ (-1060 : ℤ) ≤ rne (rne t * rne t) := by
    intro t ht
    have h1 : (2 : ℝ) ^ (-530 : ℤ) ≤ |rne t| := by
      rcases abs_cases t with ⟨e, -⟩ | ⟨e, -⟩ <;> rw [e] at ht
      · refine le_trans ?_ (le_abs_self _)
        rw [← rne_of_isDouble (isDouble_pow (-530) (by norm_num))]; exact rne_mono ht
      · refine le_trans ?_ (neg_le_abs _)
        rw [← rne_neg, ← rne_of_isDouble (isDouble_pow (-530) (by norm_num))]; exact rne_mono ht
    rw [← rne_of_isDouble (isDouble_pow (-1060) (by norm_num))]
    refine rne_mono ?_
    have h2 := mul_le_mul h1 h1 (by positivity) (abs_nonneg _)
    rw [abs_mul_abs_self, ← zpow_add₀ (by norm_num)] at h2
    exact h2
  have hpos : (2 : ℝ) ^ (-1060 : ℤ) ≤ (u.dist2 v).val := by
    change _ ≤ rne (rne (rne (u.x.val - v.x.val) * rne (u.x.val - v.x.val)) +
      rne (rne (u.y.val - v.y.val) * rne (u.y.val - v.y.val)))
    conv_lhs => rw [← rne_of_isDouble (isDouble_pow (-1060) (by norm_num))]
    refine rne_mono ?_
    have n1 : 0 ≤ rne (rne (u.x.val - v.x.val) * rne (u.x.val - v.x.val)) := rne_nonneg (mul_self_nonneg _)
    have n2 : 0 ≤ rne (rne (u.y.val - v.y.val) * rne (u.y.val - v.y.val)) := rne_nonneg (mul_self_nonneg _)
    rcases hbig with h | h
    · exact le_trans (key _ h) (le_add_of_nonneg_right n2)
    · exact le_trans (key _ h) (le_add_of_nonneg_left n1)
  exact lt_of_lt_of_le (by positivity) hpos

theorem dist2_exact_pos {u v : Vec (FP double)} (h : u.fpt ≠ v.fpt) : 0 < u.exact.dist2 v.exact := by
  have e : u.exact.dist2 v.exact = (u.x.val - v.x.val) * (u.x.val - v.x.val) + (u.y.val - v.y.val) * (u.y.val - v.y.val) := rfl
  rw [e]
  by_contra hc
  push Not at hc
  have h1 := mul_self_nonneg (u.x.val - v.x.val)
  have h2 := mul_self_nonneg (u.y.val - v.y.val)
  have h3 : u.x.val - v.x.val = 0 := mul_self_eq_zero.mp (by linarith)
  have h4 : u.y.val - v.y.val = 0 := mul_self_eq_zero.mp (by linarith)
  exact h (Prod.ext (sub_eq_zero.mp h3) (sub_eq_zero.mp h4))

theorem dist2_congr {u v w : Vec (FP double)} (h : v.fpt = w.fpt) : u.dist2 v = u.dist2 w := by
  have h1 : v.x = w.x := FP.ext (congrArg Prod.fst h)
  have h2 : v.y = w.y := FP.ext (congrArg Prod.snd h)
  simp only [Vec.dist2, h1, h2]

theorem dist2_exact_congr {u v w : Vec (FP double)} (h : v.fpt = w.fpt) : u.exact.dist2 v.exact = u.exact.dist2 w.exact := by
  have h1 : v.x.val = w.x.val := congrArg Prod.fst h
  have h2 : v.y.val = w.y.val := congrArg Prod.snd h
  simp only [Vec.dist2, Vec.exact_x, Vec.exact_y, h1, h2]

/-- Comparing distances from `a` to two points is exact if two of the three points are equal. -/
theorem fp_dist2_lt_repeat {pts : List (Vec (FP double))} (h3 : 3 ≤ pts.length) (hn : ClearPos (pts.map Vec.fpt))
    (hM : ∀ v ∈ pts, |v.x.val| ≤ (2 : ℝ) ^ (500 : ℤ) ∧ |v.y.val| ≤ (2 : ℝ) ^ (500 : ℤ)) {a b c : Vec (FP double)}
    (ha : a ∈ pts) (hb : b ∈ pts) (hc : c ∈ pts) (h : a.fpt = b.fpt ∨ b.fpt = c.fpt ∨ a.fpt = c.fpt) :
    (a.dist2 c < a.dist2 b) ↔ a.exact.dist2 c.exact < a.exact.dist2 b.exact := by
  have z1 : ∀ a : Vec (FP double), a.exact.dist2 a.exact = 0 := by
    intro a; simp only [Vec.dist2, PyrusGeom.sq, sub_self, mul_zero, add_zero]
  have nn : ∀ u v : Vec (FP double), 0 ≤ u.exact.dist2 v.exact := fun u v =>
    add_nonneg (mul_self_nonneg (u.x.val - v.x.val)) (mul_self_nonneg (u.y.val - v.y.val))
  rw [FP.lt_def]
  rcases h with h | h | h
  · rw [← dist2_congr h, ← dist2_exact_congr h, fp_dist2_self, z1]
    exact iff_of_false (not_lt.mpr (fp_dist2_nonneg _ _)) (not_lt.mpr (nn _ _))
  · rw [dist2_congr h, dist2_exact_congr h]
    exact iff_of_false (lt_irrefl _) (lt_irrefl _)
  · rw [← dist2_congr h, ← dist2_exact_congr h, fp_dist2_self, z1]
    by_cases hab : a.fpt = b.fpt
    · rw [← dist2_congr hab, ← dist2_exact_congr hab, fp_dist2_self, z1]
    · exact iff_of_true (fp_dist2_pos_clear h3 hn hM ha hb hab) (dist2_exact_pos hab)

theorem isClockwise_clear {pts : List (Vec (FP double))} (h3 : 3 ≤ pts.length) (hl : ∀ v ∈ pts, v.FOk)
    (hn : ClearPos (pts.map Vec.fpt)) (hM : ∀ v ∈ pts, |v.x.val| ≤ (2 : ℝ) ^ (500 : ℤ) ∧ |v.y.val| ≤ (2 : ℝ) ^ (500 : ℤ))
    (a b c : Vec (FP double)) (ha : a ∈ pts) (hb : b ∈ pts) (hc : c ∈ pts) :
    isClockwise a.exact b.exact c.exact = isClockwise a b c := by
  unfold isClockwise
  simp only
  by_cases hd : a.fpt = b.fpt ∨ b.fpt = c.fpt ∨ a.fpt = c.fpt
  · obtain ⟨z1, z2⟩ := fp_dsa_repeat hd
    have n1 : ¬ Tri.dsa a b c < num 0 := by rw [fp_lt_zero, z1]; exact lt_irrefl _
    have n2 : ¬ Tri.dsa a.exact b.exact c.exact < num 0 := by rw [z2]; simp
    have m1 : Tri.dsa a b c < EPSILON := by rw [FP.lt_def, z1]; exact fp_EPSILON.1
    have m2 : Tri.dsa a.exact b.exact c.exact < EPSILON := by rw [z2]; exact EPSILON_pos
    rw [decide_eq_false n1, decide_eq_false n2, decide_eq_true m1, decide_eq_true m2,
      decide_eq_decide.mpr (fp_dist2_lt_repeat h3 hn hM ha hb hc hd)]
  · push Not at hd
    obtain ⟨t1, t2, t3⟩ := fp_dsa_tests_clear hl hn ha hb hc hd.1 hd.2.2 hd.2.1
    by_cases hneg : Tri.dsa a b c < num 0
    · rw [decide_eq_true hneg, decide_eq_true (t1.mp hneg), Bool.true_or, Bool.true_or]
    · have hneg' := fun h => hneg (t1.mpr h)
      rw [decide_eq_false hneg, decide_eq_false hneg', decide_eq_false (fun h => hneg (t2.mp h)),
        decide_eq_false (fun h => hneg' (t3.mp h)), Bool.false_and, Bool.false_and]

theorem angleSort_clear {pts : List (Vec (FP double))} (h3 : 3 ≤ pts.length) (hl : ∀ v ∈ pts, v.FOk)
    (hn : ClearPos (pts.map Vec.fpt)) (hM : ∀ v ∈ pts, |v.x.val| ≤ (2 : ℝ) ^ (500 : ℤ) ∧ |v.y.val| ≤ (2 : ℝ) ^ (500 : ℤ))
    {a b c : Vec (FP double)} (ha : a ∈ pts) (hb : b ∈ pts) (hc : c ∈ pts) :
    angleSortPredicate a.exact b.exact c.exact = angleSortPredicate a b c := by
  unfold angleSortPredicate
  simp only
  by_cases hd : c.fpt = a.fpt ∨ a.fpt = b.fpt ∨ c.fpt = b.fpt
  · obtain ⟨z1, z2⟩ := fp_dsa_repeat hd
    have n1 : ¬ Tri.dsa c a b < num 0 := by rw [fp_lt_zero, z1]; exact lt_irrefl _
    have n2 : ¬ Tri.dsa c.exact a.exact b.exact < num 0 := by rw [z2]; simp
    have m1 : Tri.dsa c a b < EPSILON := by rw [FP.lt_def, z1]; exact fp_EPSILON.1
    have m2 : Tri.dsa c.exact a.exact b.exact < EPSILON := by rw [z2]; exact EPSILON_pos
    have d1 := fp_dist2_lt_repeat h3 hn hM hc ha hb hd
    have d2 := fp_dist2_lt_repeat h3 hn hM hc hb ha (by rcases hd with h | h | h <;> tauto)
    rw [if_neg n1, if_neg n2, if_pos m1, if_pos m2]
    simp only [d1, d2]
    by_cases hy : c.y < a.y
    · have hy' : c.exact.y < a.exact.y := hy
      rw [if_pos hy, if_pos hy']
    · have hy' : ¬ c.exact.y < a.exact.y := hy
      rw [if_neg hy, if_neg hy']
  · push Not at hd
    obtain ⟨t1, t2, t3⟩ := fp_dsa_tests_clear hl hn hc ha hb hd.1 hd.2.2 hd.2.1
    by_cases hneg : Tri.dsa c a b < num 0
    · rw [if_pos hneg, if_pos (t1.mp hneg)]
    · have hneg' := fun h => hneg (t1.mpr h)
      rw [if_neg hneg, if_neg hneg', if_neg (fun h => hneg (t2.mp h)), if_neg (fun h => hneg' (t3.mp h))]

theorem before_clear {pts : List (Vec (FP double))} (h3 : 3 ≤ pts.length) (hl : ∀ v ∈ pts, v.FOk)
    (hn : ClearPos (pts.map Vec.fpt)) (hM : ∀ v ∈ pts, |v.x.val| ≤ (2 : ℝ) ^ (500 : ℤ) ∧ |v.y.val| ≤ (2 : ℝ) ^ (500 : ℤ))
    {o : Vec (FP double)} (ho : o ∈ pts) (h0 : o.fpt = 0)
    (a b : Vec (FP double)) (ha : a ∈ pts) (hb : b ∈ pts) : before a.exact b.exact = beforeF a b := by
  have hz : (num 0 : FP double).val = 0 := fp_zero
  have e1 : o.x = (Vec.zero : Vec (FP double)).x := FP.ext ((congrArg Prod.fst h0).trans hz.symm)
  have e2 : o.y = (Vec.zero : Vec (FP double)).y := FP.ext ((congrArg Prod.snd h0).trans hz.symm)
  have eF : angleSortPredicate a b Vec.zero = angleSortPredicate a b o := by
    obtain ⟨x, y, v⟩ := o
    simp only at e1 e2
    subst e1 e2
    rfl
  have eR : angleSortPredicate a.exact b.exact Vec.zero = angleSortPredicate a.exact b.exact o.exact := by
    rw [← exact_zero]
    obtain ⟨x, y, v⟩ := o
    simp only at e1 e2
    subst e1 e2
    rfl
  unfold before beforeF
  rw [eF, eR, angleSort_clear h3 hl hn hM ha hb ho]

/-- **C139** The Graham scan in double precision, for any doubles up to `2^500` as coordinates, no three points nearly on a
line, with the origin among the points and no point above it, with any sort: the scan ends without an exception, its vertices
are input points, first the origin, the others clockwise about it; in reverse order they are the corners of a strictly convex
polygon with the hull of the input, and the edges are its outline. -/
theorem C139_graham (pts : List (Vec (FP double))) (h3 : 3 ≤ pts.length) (hl : ∀ v ∈ pts, v.FOk)
    (hn : ClearPos (pts.map Vec.fpt)) (hM : ∀ v ∈ pts, |v.x.val| ≤ (2 : ℝ) ^ (500 : ℤ) ∧ |v.y.val| ≤ (2 : ℝ) ^ (500 : ℤ))
    (srt) (hs : Spec.Sorts srt) (o : Vec (FP double)) (ho : o ∈ pts) (h0 : o.fpt = 0) (hy : ∀ p ∈ pts, p.y.val ≤ 0) :
    ∃ h', compute srt (Obj.ofList pts) .graham = .ok h' ∧ (∀ v ∈ h'.vertices, v ∈ pts) ∧
      (∃ r, h'.vertices = o :: r ∧ r.Pairwise (fun a b => area2 o.fpt a.fpt b.fpt < 0)) ∧
      StrictConvex (h'.vertices.map Vec.fpt).reverse ∧
      convexHull ℝ {z | z ∈ h'.vertices.map Vec.fpt} = convexHull ℝ {z | z ∈ pts.map Vec.fpt} ∧
      {p | ∃ s ∈ h'.getEdges, p ∈ s.fpts} = outline (h'.vertices.map Vec.fpt) := by
  have hg := clear_genPos hn
  have hl3 : 3 ≤ (pts.map Vec.exact).length := by simpa using h3
  have hs' := exactSort_sorts (P := (· ∈ pts)) (before_clear h3 hl hn hM ho h0) hs
  obtain ⟨H, hH, m1, ⟨r, m2, m3⟩, m4, m5, m6⟩ := C113_graham_partial (pts.map Vec.exact) hl3 hg (exactSort (· ∈ pts) srt) hs'
    o.exact (List.mem_map_of_mem ho) h0 (by
      intro p hp
      obtain ⟨v, hv, rfl⟩ := List.mem_map.mp hp
      exact hy v hv)
  have e : compute (exactSort (· ∈ pts) srt) (Obj.ofList (pts.map Vec.exact)) .graham =
      (compute srt (Obj.ofList pts) .graham).map Obj.exact :=
    graham_exact (P := (· ∈ pts)) (isClockwise_clear h3 hl hn hM) (fun lt l => (hs lt l).1) (fun _ h => h)
  rw [e] at hH
  cases hc : compute srt (Obj.ofList pts) .graham with
  | error x => rw [hc] at hH; simp [Except.map] at hH
  | ok h' =>
    rw [hc] at hH
    simp only [Except.map, Except.ok.injEq] at hH
    subst hH
    rw [Obj.exact_vertices] at m1 m2 m4 m5 m6
    rw [map_exact_pt] at m4 m5 m6
    rw [map_exact_pt] at m5
    refine ⟨h', rfl, ?_, ?_, m4, m5, ?_⟩
    · intro w hw
      obtain ⟨z, hz, hzw⟩ := List.mem_map.mp (m1 _ (List.mem_map_of_mem hw))
      rwa [← Vec.exact_injective hzw]
    · obtain ⟨w, s, e1, e2, e3⟩ := List.map_eq_cons_iff.mp m2
      have := Vec.exact_injective e2
      subst this
      refine ⟨s, e1, ?_⟩
      rw [← e3, List.pairwise_map] at m3
      exact m3
    · rw [← m6]
      ext z
      have ee : h'.exact.getEdges = h'.getEdges.map Seg.exact := rfl
      rw [ee]
      simp only [Set.mem_ofPred_eq, List.mem_map]
      constructor
      · rintro ⟨s, hs, hz⟩; exact ⟨_, ⟨s, hs, rfl⟩, hz⟩
      · rintro ⟨_, ⟨s, hs, rfl⟩, hz⟩; exact ⟨s, hs, hz⟩

/-- **C139** Under the same guard the direct method returns the vertices in the same order. -/
theorem C139_direct_order (pts : List (Vec (FP double))) (h3 : 3 ≤ pts.length) (hl : ∀ v ∈ pts, v.FOk)
    (hn : ClearPos (pts.map Vec.fpt)) (hM : ∀ v ∈ pts, |v.x.val| ≤ (2 : ℝ) ^ (500 : ℤ) ∧ |v.y.val| ≤ (2 : ℝ) ^ (500 : ℤ))
    (srt) (hs : Spec.Sorts srt) (o : Vec (FP double)) (ho : o ∈ pts) (h0 : o.fpt = 0) (hy : ∀ p ∈ pts, p.y.val ≤ 0) :
    ∃ hd hgr, compute srt (Obj.ofList pts) .direct = .ok hd ∧ compute srt (Obj.ofList pts) .graham = .ok hgr ∧
      hd.vertices = hgr.vertices := by
  have hg := clear_genPos hn
  have hl3 : 3 ≤ (pts.map Vec.exact).length := by simpa using h3
  have hs' := exactSort_sorts (P := (· ∈ pts)) (before_clear h3 hl hn hM ho h0) hs
  obtain ⟨hd, hgr, c1, c2, c3, -⟩ := C116_order_partial (pts.map Vec.exact) hl3 hg (exactSort (· ∈ pts) srt) hs' o.exact
    (List.mem_map_of_mem ho) h0 (by
      intro p hp
      obtain ⟨v, hv, rfl⟩ := List.mem_map.mp hp
      exact hy v hv)
  obtain ⟨h', hok, -⟩ := C139_graham pts h3 hl hn hM srt hs o ho h0 hy
  refine ⟨_, h', rfl, hok, ?_⟩
  have e : compute (exactSort (· ∈ pts) srt) (Obj.ofList (pts.map Vec.exact)) .graham =
      (compute srt (Obj.ofList pts) .graham).map Obj.exact :=
    graham_exact (P := (· ∈ pts)) (isClockwise_clear h3 hl hn hM) (fun lt l => (hs lt l).1) (fun _ h => h)
  have e' : compute (exactSort (· ∈ pts) srt) (Obj.ofList (pts.map Vec.exact)) .direct =
      .ok (direct srt (Obj.ofList pts)).exact := by
    rw [← direct_exact (P := (· ∈ pts)) srt (fun _ h => h) (directStep_clear hl hn)]; rfl
  rw [e, hok] at c2
  rw [e'] at c1
  simp only [Except.map, Except.ok.injEq] at c1 c2
  rw [← c1, ← c2, Obj.exact_vertices, Obj.exact_vertices] at c3
  exact Vec.exact_injective.list_map c3

/-- C138: the edges found for the points of `tenthHull` have no point on their left. -/
example (srt) (hs : ∀ lt l, (srt lt l).Perm l) : ∀ s ∈ (direct srt (Obj.ofList tenthHull)).getEdges, ∀ p ∈ tenthHull,
    area2 s.origin.fpt s.terminal.fpt p.fpt ≤ 0 :=
  (C138_direct tenthHull (by simp [tenthHull]) tenthHull_ok.1 tenthHull_ok.2 srt hs _ rfl).2.2.1

/-- Four points at and below the origin; the coordinates of the second are the double next to -0.1. -/
noncomputable def tenthFour : List (Vec (FP double)) :=
  [gridVec 1 (-2), Vec.ofXY (-tenthVec.x) (-tenthVec.y), gridVec 0 0, gridVec (-2) (-3)]

theorem tenthFour_ok : (∀ v ∈ tenthFour, v.FOk) ∧ ClearPos (tenthFour.map Vec.fpt) ∧
    (∀ v ∈ tenthFour, |v.x.val| ≤ (2 : ℝ) ^ (500 : ℤ) ∧ |v.y.val| ≤ (2 : ℝ) ^ (500 : ℤ)) ∧ ∀ p ∈ tenthFour, p.y.val ≤ 0 := by
  have hx : tenthVec.x.val = 3602879701896397 / 2 ^ 55 := congrArg Prod.fst tenthVec_fpt
  have hy : tenthVec.y.val = 3602879701896397 / 2 ^ 55 := congrArg Prod.snd tenthVec_fpt
  have e0 : (Vec.ofXY (-tenthVec.x) (-tenthVec.y)).fpt = (-(3602879701896397 / 2 ^ 55), -(3602879701896397 / 2 ^ 55)) := by
    change (-tenthVec.x.val, -tenthVec.y.val) = _
    rw [hx, hy]
  have e : tenthFour.map Vec.fpt =
      [(1, -2), (-(3602879701896397 / 2 ^ 55), -(3602879701896397 / 2 ^ 55)), (0, 0), (-2, -3)] := by
    simp only [tenthFour, List.map_cons, List.map_nil, e0, gridVec_fpt]; norm_num
  have hco : ∀ v ∈ tenthFour, |v.x.val| ≤ 4 ∧ |v.y.val| ≤ 4 ∧ v.y.val ≤ 0 := by
    intro v hv
    have hv' : v.fpt ∈ tenthFour.map Vec.fpt := List.mem_map_of_mem hv
    rw [e] at hv'
    simp only [List.mem_cons, List.not_mem_nil, or_false] at hv'
    have h1 : v.x.val = v.fpt.1 := rfl
    have h2 : v.y.val = v.fpt.2 := rfl
    rw [h1, h2]
    rcases hv' with h | h | h | h <;> rw [h] <;> norm_num [abs_of_neg, abs_of_pos]
  have h500 : (4 : ℝ) ≤ (2 : ℝ) ^ (500 : ℤ) := by
    rw [show (4 : ℝ) = (2 : ℝ) ^ (2 : ℤ) by norm_num]
    exact zpow_le_zpow_right₀ (by norm_num) (by norm_num)
  refine ⟨?_, ?_, fun v hv => ⟨le_trans (hco v hv).1 h500, le_trans (hco v hv).2.1 h500⟩, fun v hv => (hco v hv).2.2⟩
  · intro v hv
    simp only [tenthFour, List.mem_cons, List.not_mem_nil, or_false] at hv
    rcases hv with rfl | rfl | rfl | rfl
    · exact (gridVec_fineOk (by norm_num) (by norm_num)).1
    · exact ⟨tenthVec_fineOk.1.1.neg, tenthVec_fineOk.1.2.neg⟩
    · exact (gridVec_fineOk (by norm_num) (by norm_num)).1
    · exact (gridVec_fineOk (by norm_num) (by norm_num)).1
  · rw [e]
    constructor
    · norm_num
    · intro a ha b hb c hc h1 h2 h3
      refine lt_of_le_of_lt (add_le_add (add_le_add le_rfl tiny_le) le_rfl) ?_
      simp only [List.mem_cons, List.not_mem_nil, or_false] at ha hb hc
      rcases ha with rfl | rfl | rfl | rfl <;> rcases hb with rfl | rfl | rfl | rfl <;>
        rcases hc with rfl | rfl | rfl | rfl <;>
        first
        | exact absurd rfl h1
        | exact absurd rfl h2
        | exact absurd rfl h3
        | norm_num [cross, abs_of_neg, abs_of_pos]

/-- C139: the hypotheses hold for `tenthFour`, so the scan succeeds and starts at the origin. -/
example (srt) (hs : Spec.Sorts srt) : ∃ h', compute srt (Obj.ofList tenthFour) .graham = .ok h' ∧
    h'.vertices.head? = some (gridVec 0 0) := by
  obtain ⟨h', e, -, ⟨r, hr, -⟩, -⟩ := C139_graham tenthFour (by simp [tenthFour]) tenthFour_ok.1 tenthFour_ok.2.1
    tenthFour_ok.2.2.1 srt hs (gridVec 0 0) (by simp [tenthFour]) (by simp [Vec.fpt, gridVec, Vec.ofXY]) tenthFour_ok.2.2.2
  exact ⟨h', e, by rw [hr]; rfl⟩

end PyrusGeom
