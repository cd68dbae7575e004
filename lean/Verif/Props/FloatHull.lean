import Verif.Props.FloatPoly
import Verif.Props.HullDirect

/-! # Property C123: convex hulls of points on a common grid in double precision

`k ≥ -9`: the grid is so coarse that every area that is not zero is above `EPSILON`. -/

namespace PyrusGeom
open Spec Hull

theorem fp_EPSILON : 0 < (EPSILON : FP double).val ∧ (EPSILON : FP double).val ≤ (2 : ℝ) ^ (-18 : ℤ) := by
  have e : (EPSILON : FP double).val = rne (1 / 1000000) := by
    change rne (rne ((1 : ℕ) : ℝ) / rne ((1000000 : ℕ) : ℝ)) = _
    rw [rne_of_isDouble (isDouble_nat (n := 1) (by norm_num)), rne_of_isDouble (isDouble_nat (n := 1000000) (by norm_num))]
    norm_num
  rw [e]
  constructor
  · have := rne_mono (show (2 : ℝ) ^ (-20 : ℤ) ≤ 1 / 1000000 by norm_num)
    rw [rne_of_isDouble (isDouble_pow (-20) (by norm_num))] at this
    exact lt_of_lt_of_le (by positivity) this
  · have := rne_mono (show (1 / 1000000 : ℝ) ≤ (2 : ℝ) ^ (-18 : ℤ) by norm_num)
    rwa [rne_of_isDouble (isDouble_pow (-18) (by norm_num))] at this

theorem Vec.exact_injective : Function.Injective Vec.exact := by
  intro u v h
  have h1 := congrArg Vec.x h
  have h2 := congrArg Vec.y h
  have h3 := congrArg Vec.valid h
  exact Vec.ext (FP.ext h1) (FP.ext h2) h3

theorem exact_zero : (Vec.zero : Vec (FP double)).exact = Vec.zero := by
  have h : (num 0 : FP double).val = 0 := fp_zero
  refine Vec.ext ?_ ?_ rfl
  · change (num 0 : FP double).val = num 0
    rw [h]; simp
  · change (num 0 : FP double).val = num 0
    rw [h]; simp

theorem at'_exact (pts : List (Vec (FP double))) (i : ℕ) : at' (pts.map Vec.exact) i = (at' pts i).exact := by
  unfold at'
  rw [List.getD_eq_getElem?_getD, List.getD_eq_getElem?_getD, List.getElem?_map]
  cases pts[i]? with
  | none => exact exact_zero.symm
  | some v => rfl

theorem at'_onGrid {k : ℤ} {pts : List (Vec (FP double))} (h : ∀ v ∈ pts, v.OnGrid k) (i : ℕ) : (at' pts i).OnGrid k := by
  unfold at'
  rw [List.getD_eq_getElem?_getD]
  cases hi : pts[i]? with
  | some v => exact h _ (List.mem_of_getElem? hi)
  | none =>
    have hz : (num 0 : FP double).val = 0 := fp_zero
    exact ⟨⟨0, by norm_num, by change (num 0 : FP double).val = _; rw [hz]; simp⟩,
      ⟨0, by norm_num, by change (num 0 : FP double).val = _; rw [hz]; simp⟩⟩

theorem minStep_exact (pts : List (Vec (FP double))) (s : ℕ × Vec (FP double)) (i : ℕ) :
    minStep (pts.map Vec.exact) (s.1, s.2.exact) i = ((minStep pts s i).1, (minStep pts s i).2.exact) := by
  unfold minStep
  rw [at'_exact]
  have e := fp_beq_exact s.2.x (at' pts i).x
  by_cases h : (decide ((at' pts i).x < s.2.x) || (s.2.x == (at' pts i).x && decide ((at' pts i).y < s.2.y))) = true
  · have h' := h
    rw [e] at h'
    rw [if_pos h]
    exact if_pos h'
  · have h' := h
    rw [e] at h'
    rw [if_neg h]
    exact if_neg h'

theorem minPointIndex_exact (pts : List (Vec (FP double))) : minPointIndex (pts.map Vec.exact) = minPointIndex pts := by
  have key : ∀ (l : List ℕ) (s : ℕ × Vec (FP double)), l.foldl (minStep (pts.map Vec.exact)) (s.1, s.2.exact) =
      ((l.foldl (minStep pts) s).1, (l.foldl (minStep pts) s).2.exact) := by
    intro l
    induction l with
    | nil => intro s; rfl
    | cons i l ih => intro s; rw [List.foldl_cons, minStep_exact, ih, List.foldl_cons]
  unfold minPointIndex
  rw [List.length_map, at'_exact, key _ (0, at' pts 0)]

theorem fp_dist2_lt {k : ℤ} (hk : -537 ≤ k) {u v w z : Vec (FP double)} (hu : u.OnGrid k) (hv : v.OnGrid k)
    (hw : w.OnGrid k) (hz : z.OnGrid k) : (u.dist2 v < w.dist2 z) ↔ u.exact.dist2 v.exact < w.exact.dist2 z.exact := by
  rw [FP.lt_def, fp_dist2_grid hk hu hv, fp_dist2_grid hk hw hz]
  have e : ∀ a b : Vec (FP double), d a.fpt b.fpt ^ 2 = a.exact.dist2 b.exact := by
    intro a b
    rw [d, Real.sq_sqrt (by positivity)]
    simp only [Vec.dist2, PyrusGeom.sq, Vec.exact_x, Vec.exact_y, Vec.fpt]; ring
  rw [e, e]

theorem Grid.lt_small {k B : ℤ} {x e : ℝ} (hx : Grid k B x) (hk : -18 ≤ k) (h0 : 0 < e) (h1 : e ≤ (2 : ℝ) ^ (-18 : ℤ)) :
    x < e ↔ x ≤ 0 := by
  constructor
  · intro h
    by_contra hn
    have := hx.unit_le (not_le.mp hn)
    have := zpow_le_zpow_right₀ (one_le_two (α := ℝ)) hk
    linarith
  · intro h; linarith

theorem EPSILON_small : (EPSILON : ℝ) ≤ (2 : ℝ) ^ (-18 : ℤ) := by rw [EPSILON_real]; norm_num

theorem fp_dsa_tests {k : ℤ} (hk : -9 ≤ k) {a b c : Vec (FP double)} (ha : a.OnGrid k) (hb : b.OnGrid k) (hc : c.OnGrid k) :
    ((Tri.dsa a b c < num 0) ↔ Tri.dsa a.exact b.exact c.exact < num 0) ∧
    ((Tri.dsa a b c < EPSILON) ↔ Tri.dsa a.exact b.exact c.exact < EPSILON) := by
  obtain ⟨e, g⟩ := fp_dsa_grid (by omega) ha hb hc
  rw [fp_lt_zero, FP.lt_def, e, Tri.dsa_real, num_real, Nat.cast_zero]
  refine ⟨Iff.rfl, ?_⟩
  rw [g.lt_small (by omega) fp_EPSILON.1 fp_EPSILON.2]
  exact (g.lt_small (by omega) EPSILON_pos EPSILON_small).symm

theorem candStep_exact {k : ℤ} (hk : -9 ≤ k) {pts : List (Vec (FP double))} (h : ∀ v ∈ pts, v.OnGrid k) (cur : ℕ)
    {curP : Vec (FP double)} (hc : curP.OnGrid k) (used : List ℕ) (cand i : ℕ) :
    candStep (pts.map Vec.exact) cur curP.exact used cand i = candStep pts cur curP used cand i := by
  unfold candStep
  simp only [at'_exact, fp_dsa_tests hk hc (at'_onGrid h cand) (at'_onGrid h i),
    fp_dist2_lt (show -537 ≤ k by omega) hc (at'_onGrid h i) hc (at'_onGrid h cand)]

theorem nextIndex_exact {k : ℤ} (hk : -9 ≤ k) {pts : List (Vec (FP double))} (h : ∀ v ∈ pts, v.OnGrid k) (cur : ℕ)
    (used : List ℕ) : nextIndex (pts.map Vec.exact) cur used = nextIndex pts cur used := by
  unfold nextIndex
  simp only [List.length_map, at'_exact]
  congr 1
  funext c i
  exact candStep_exact hk h cur (at'_onGrid h cur) used c i

theorem wrapLoop_exact {k : ℤ} (hk : -9 ≤ k) {pts : List (Vec (FP double))} (h : ∀ v ∈ pts, v.OnGrid k) (m : ℕ)
    (fuel cur : ℕ) (used : List ℕ) (vs : List (Vec (FP double))) :
    wrapLoop (pts.map Vec.exact) m fuel cur used (vs.map Vec.exact) = (wrapLoop pts m fuel cur used vs).map Vec.exact := by
  induction fuel generalizing cur used vs with
  | zero => rfl
  | succ fuel ih =>
    unfold wrapLoop
    simp only [nextIndex_exact hk h, at'_exact]
    have e : vs.map Vec.exact ++ [(at' pts (nextIndex pts cur used)).exact] =
        (vs ++ [at' pts (nextIndex pts cur used)]).map Vec.exact := by simp
    rw [e]
    split_ifs
    · rfl
    · exact ih _ _ _

theorem hullEdges_exact (vs : List (Vec (FP double))) : hullEdges (vs.map Vec.exact) = (hullEdges vs).map Seg.exact := by
  unfold hullEdges
  rw [List.length_map, List.map_filterMap]
  congr 1
  funext i
  rw [at'_exact, at'_exact, at'_exact, ← fp_vec_eq]
  split_ifs <;> rfl

/-- On the grid, gift wrapping makes the same decisions in double precision as in exact arithmetic. -/
theorem wrapping_exact {k : ℤ} (hk : -9 ≤ k) (pts : List (Vec (FP double))) (h : ∀ v ∈ pts, v.OnGrid k) :
    (wrapping (Obj.ofList (pts.map Vec.exact))).vertices = (wrapping (Obj.ofList pts)).vertices.map Vec.exact ∧
    (wrapping (Obj.ofList (pts.map Vec.exact))).getEdges = (wrapping (Obj.ofList pts)).getEdges.map Seg.exact := by
  have e1 : (Obj.ofList (pts.map Vec.exact)).clearResults = Obj.ofList (pts.map Vec.exact) := rfl
  have e2 : (Obj.ofList pts).clearResults = Obj.ofList pts := rfl
  unfold wrapping
  rw [e1, e2]
  have e3 : (Obj.ofList (pts.map Vec.exact)).input = pts.map Vec.exact := rfl
  have e4 : (Obj.ofList pts).input = pts := rfl
  simp only [e3, e4, List.length_map, minPointIndex_exact]
  split_ifs
  · exact ⟨rfl, rfl⟩
  · have := wrapLoop_exact hk h (minPointIndex pts).toNat (pts.length + 1) (minPointIndex pts).toNat []
      [at' pts (minPointIndex pts).toNat]
    simp only [List.map_cons, List.map_nil] at this
    rw [at'_exact, this]
    refine ⟨?_, hullEdges_exact _⟩
    simp only [Obj.vertices, Bool.false_eq_true, if_false]
    rw [← List.map_dropLast]

theorem area2_gap {k : ℤ} (hk : -9 ≤ k) {a b c : Vec (FP double)} (ha : a.OnGrid k) (hb : b.OnGrid k) (hc : c.OnGrid k)
    (h : area2 a.fpt b.fpt c.fpt ≠ 0) : EPSILON ≤ |area2 a.fpt b.fpt c.fpt| := by
  obtain ⟨-, g⟩ := fp_dsa_grid (by omega) ha hb hc
  rcases lt_or_gt_of_ne h with h | h
  · rw [abs_of_neg h]
    by_contra hn
    have := (g.neg.lt_small (by omega) EPSILON_pos EPSILON_small).mp (not_le.mp hn)
    linarith
  · rw [abs_of_pos h]
    by_contra hn
    have := (g.lt_small (by omega) EPSILON_pos EPSILON_small).mp (not_le.mp hn)
    linarith

theorem map_exact_pt (l : List (Vec (FP double))) : (l.map Vec.exact).map Vec.pt = l.map Vec.fpt := by
  rw [List.map_map]; rfl

/-- No point is repeated, and a line through three points of the list has points of the list strictly on both sides (so no
three points are on a line that bounds the convex hull). -/
structure Spec.NoThreeOnHull (l : List Pt) : Prop where
  nodup : l.Nodup
  inner : ∀ a ∈ l, ∀ b ∈ l, ∀ c ∈ l, a ≠ b → a ≠ c → b ≠ c → area2 a b c = 0 →
    ∃ u ∈ l, ∃ v ∈ l, area2 a b u < 0 ∧ 0 < area2 a b v

theorem grid_hullPos {k : ℤ} (hk : -9 ≤ k) {pts : List (Vec (FP double))} (h : ∀ v ∈ pts, v.OnGrid k)
    (hn : NoThreeOnHull (pts.map Vec.fpt)) : HullPos ((pts.map Vec.exact).map Vec.pt) EPSILON := by
  rw [map_exact_pt]
  refine ⟨?_, ?_, ?_⟩
  · intro i j hi hj hij
    exact (List.Nodup.getElem_inj_iff hn.nodup).mp hij
  · intro i j l hi hj hl hz
    simp only [List.getElem_map] at hz ⊢
    exact area2_gap hk (h _ (List.getElem_mem _)) (h _ (List.getElem_mem _)) (h _ (List.getElem_mem _)) hz
  · intro i j l hi hj hl h1 h2 h3 hz
    have hne : ∀ {i j : ℕ} (hi : i < (pts.map Vec.fpt).length) (hj : j < (pts.map Vec.fpt).length), i ≠ j →
        (pts.map Vec.fpt)[i] ≠ (pts.map Vec.fpt)[j] := fun hi hj hij he =>
      hij ((List.Nodup.getElem_inj_iff hn.nodup).mp he)
    exact hn.inner _ (List.getElem_mem hi) _ (List.getElem_mem hj) _ (List.getElem_mem hl) (hne hi hj h1) (hne hi hl h2)
      (hne hj hl h3) hz

/-- **C123** Gift wrapping in double precision, on a common grid of step `2^k ≥ 2^-9` with integer factors up to `2^25`: the
vertices are input points, the first one is the lowest of the leftmost ones, they are the corners of a strictly convex polygon
in counterclockwise order, and their convex hull is the convex hull of the input, without any error. -/
theorem C123_wrapping (k : ℤ) (hk : -9 ≤ k) (pts : List (Vec (FP double))) (h3 : 3 ≤ pts.length)
    (h : ∀ v ∈ pts, v.OnGrid k) (hn : NoThreeOnHull (pts.map Vec.fpt)) (srt) (h' : Obj (FP double))
    (hc : compute srt (Obj.ofList pts) .wrapping = .ok h') :
    (∀ v ∈ h'.vertices, v ∈ pts) ∧
    (∃ v t, h'.vertices = v :: t ∧ ∀ p ∈ pts, ¬ LexLt p.fpt v.fpt) ∧
    StrictConvex (h'.vertices.map Vec.fpt) ∧
    convexHull ℝ {z | z ∈ h'.vertices.map Vec.fpt} = convexHull ℝ {z | z ∈ pts.map Vec.fpt} := by
  obtain rfl : wrapping (Obj.ofList pts) = h' := by simpa [compute] using hc
  have hg := grid_hullPos hk h hn
  have hl : 3 ≤ (pts.map Vec.exact).length := by simpa using h3
  obtain ⟨q1, ⟨v, t, q2, q3⟩, -, -⟩ := C78_wrapping (pts.map Vec.exact) hl hg (fun _ l => l) _ rfl
  obtain ⟨q4, q5⟩ := C78_convex_hull (pts.map Vec.exact) hl hg
  have e := (wrapping_exact hk pts h).1
  rw [e] at q1 q2 q4 q5
  rw [map_exact_pt] at q4 q5
  rw [map_exact_pt] at q5
  refine ⟨?_, ?_, q4, q5⟩
  · intro w hw
    obtain ⟨z, hz, hzw⟩ := List.mem_map.mp (q1 _ (List.mem_map_of_mem hw))
    rwa [← Vec.exact_injective hzw]
  · obtain ⟨w, s, e1, e2, -⟩ := List.map_eq_cons_iff.mp q2
    refine ⟨w, s, e1, ?_⟩
    intro p hp
    have := q3 _ (List.mem_map_of_mem (f := Vec.exact) hp)
    rwa [← e2] at this

/-- **C123** The polygon of the hull contains a point of the grid exactly if the point is inside the convex hull of the input
(points on the outline left out). -/
theorem C123_to_polygon (k : ℤ) (hk : -9 ≤ k) (pts : List (Vec (FP double))) (h3 : 3 ≤ pts.length)
    (h : ∀ v ∈ pts, v.OnGrid k) (hn : NoThreeOnHull (pts.map Vec.fpt)) (p : Vec (FP double)) (hp : p.OnGrid k) :
    (wrapping (Obj.ofList pts)).toPolygon.contains p false = true ↔
      p.fpt ∈ interior (convexHull ℝ {z | z ∈ pts.map Vec.fpt}) := by
  obtain ⟨q1, -, -, -⟩ := C123_wrapping k hk pts h3 h hn (fun _ l => l) _ rfl
  have hl : 3 ≤ (pts.map Vec.exact).length := by simpa using h3
  have := (C78_to_polygon (pts.map Vec.exact) hl (grid_hullPos hk h hn) p.exact).1
  rw [map_exact_pt] at this
  rw [fp_contains_grid (k := k) (by omega) (wrapping (Obj.ofList pts)).toPolygon p (fun v hv => h v (q1 v hv)) hp]
  have e : (wrapping (Obj.ofList pts)).toPolygon.exact = (wrapping (Obj.ofList (pts.map Vec.exact))).toPolygon := by
    unfold Obj.toPolygon
    rw [(wrapping_exact hk pts h).1]
    rfl
  rw [e, this]; rfl

/-- Five points with large coordinates: a square and its center. -/
noncomputable def gridCross : List (Vec (FP double)) :=
  [gridVec 0 0, gridVec 16777216 16777216, gridVec 33554432 0, gridVec 33554432 33554432, gridVec 0 33554432]

theorem gridCross_ok : (∀ v ∈ gridCross, v.OnGrid 0) ∧ NoThreeOnHull (gridCross.map Vec.fpt) := by
  constructor
  · intro v hv
    simp only [gridCross, List.mem_cons, List.not_mem_nil, or_false] at hv
    rcases hv with rfl | rfl | rfl | rfl | rfl <;> exact gridVec_onGrid (by norm_num) (by norm_num)
  have e : gridCross.map Vec.fpt = [(0, 0), (16777216, 16777216), (33554432, 0), (33554432, 33554432), (0, 33554432)] := by
    simp [gridCross, Vec.fpt, gridVec, Vec.ofXY]
  rw [e]
  constructor
  · norm_num
  · intro a ha b hb c hc
    simp only [List.mem_cons, List.not_mem_nil, or_false, exists_eq_or_imp, exists_eq_left] at ha hb hc ⊢
    rcases ha with rfl | rfl | rfl | rfl | rfl <;> rcases hb with rfl | rfl | rfl | rfl | rfl <;>
      rcases hc with rfl | rfl | rfl | rfl | rfl <;> norm_num [area2]

/-- C123: the corner (0, 0) of the hull polygon is not strictly inside it. -/
example : (wrapping (Obj.ofList gridCross)).toPolygon.contains (gridVec 0 0) false = false := by
  rw [← Bool.not_eq_true, C123_to_polygon 0 (by norm_num) gridCross (by simp [gridCross]) gridCross_ok.1 gridCross_ok.2 _
    (gridVec_onGrid (by norm_num) (by norm_num))]
  intro h
  have hsub : convexHull ℝ {z | z ∈ gridCross.map Vec.fpt} ⊆ {z : Pt | 0 ≤ z.1} := by
    refine convexHull_min ?_ (convex_halfSpace_ge (IsLinearMap.mk (by simp) (by simp)) 0)
    intro z hz
    simp only [gridCross, List.map_cons, List.map_nil, List.mem_cons, List.not_mem_nil, or_false, Set.mem_ofPred_eq] at hz
    rcases hz with rfl | rfl | rfl | rfl | rfl <;> norm_num [Vec.fpt, gridVec, Vec.ofXY]
  have h2 := interior_mono hsub h
  have h3 : interior {z : Pt | 0 ≤ z.1} = {z : Pt | 0 < z.1} := by
    have := interior_prod_eq (Set.Ici (0 : ℝ)) (Set.univ : Set ℝ)
    rw [interior_Ici, interior_univ] at this
    convert this using 1
    · congr 1; ext z; simp
    · ext z; simp
  rw [h3] at h2
  simp [Vec.fpt, gridVec, Vec.ofXY] at h2

end PyrusGeom
