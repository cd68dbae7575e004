import Verif.Props.HullDirect
import Verif.Props.ConvexHull

/-! # Property C117: gift wrapping on arbitrary input -/

namespace PyrusGeom
open Spec
namespace Hull

theorem firstCandidate_lt {n cur : ℕ} {used : List ℕ} (hn : 0 < n) : firstCandidate n cur used < n := by
  unfold firstCandidate
  cases hf : (List.range n).find? (fun i => !(i == cur || used.contains i)) with
  | none => simpa using hn
  | some j =>
    rw [Option.getD_some]
    exact List.mem_range.mp (List.mem_of_find?_eq_some hf)

theorem candStep_mem (pts : List (Vec ℝ)) (cur : ℕ) (c : Vec ℝ) (used : List ℕ) (cand i : ℕ) :
    candStep pts cur c used cand i = cand ∨ candStep pts cur c used cand i = i := by
  unfold candStep
  simp only
  split_ifs <;> simp

theorem nextIndex_lt {pts : List (Vec ℝ)} (cur : ℕ) (used : List ℕ) (hn : 0 < pts.length) :
    nextIndex pts cur used < pts.length := by
  have key : ∀ (L : List ℕ) (s : ℕ), s < pts.length → (∀ i ∈ L, i < pts.length) →
      L.foldl (candStep pts cur (at' pts cur) used) s < pts.length := by
    intro L
    induction L with
    | nil => intro s hs _; exact hs
    | cons i L ih =>
      intro s hs hL
      rw [List.foldl_cons]
      refine ih _ ?_ (fun j hj => hL j (List.mem_cons_of_mem _ hj))
      rcases candStep_mem pts cur (at' pts cur) used s i with h | h <;> rw [h]
      · exact hs
      · exact hL i (by simp)
  unfold nextIndex
  exact key _ _ (firstCandidate_lt hn) (by intro i hi; rw [List.mem_range'_1] at hi; omega)

theorem wrapLoop_shape {pts : List (Vec ℝ)} (hn : 0 < pts.length) (m fuel cur : ℕ) (used : List ℕ) (vs : List (Vec ℝ)) :
    ∃ u : List ℕ, (∀ i ∈ u, i < pts.length) ∧ u.length ≤ fuel ∧ (0 < fuel → u ≠ []) ∧
      wrapLoop pts m fuel cur used vs = vs ++ u.map (at' pts) := by
  induction fuel generalizing cur used vs with
  | zero => exact ⟨[], by simp, by simp, by simp, by simp [wrapLoop]⟩
  | succ fuel ih =>
    have hlt := nextIndex_lt (pts := pts) cur used hn
    unfold wrapLoop
    simp only
    split_ifs with h
    · exact ⟨[nextIndex pts cur used], by simpa using hlt, by simp, by simp, by simp⟩
    · obtain ⟨u, h1, h2, -, h4⟩ := ih (nextIndex pts cur used) (used ++ [nextIndex pts cur used])
        (vs ++ [at' pts (nextIndex pts cur used)])
      refine ⟨nextIndex pts cur used :: u, ?_, by simp; omega, by simp, by rw [h4]; simp⟩
      intro i hi
      rcases List.mem_cons.mp hi with rfl | hi
      · exact hlt
      · exact h1 i hi

/-- **C117**, what holds for every input of three or more points: the vertices are input points, the first one is the
lexicographically least, and there are at most one more than input points. -/
theorem C117_any_input_partial (pts : List (Vec ℝ)) (h3 : 3 ≤ pts.length) :
    (∀ v ∈ (wrapping (Obj.ofList pts)).vertices, v ∈ pts) ∧
    (∃ v t, (wrapping (Obj.ofList pts)).vertices = v :: t ∧ ∀ p ∈ pts, ¬ LexLt p.pt v.pt) ∧
    (wrapping (Obj.ofList pts)).vertices.length ≤ pts.length + 1 ∧
    convexHull ℝ {z | z ∈ (wrapping (Obj.ofList pts)).vertices.map Vec.pt} ⊆ convexHull ℝ {z | z ∈ pts.map Vec.pt} := by
  obtain ⟨h0, _⟩ | ⟨m, hm, hme, hmin, _⟩ := C81_min_point_index pts
  · rw [h0] at h3; simp at h3
  have hmem : ∀ i, i < pts.length → at' pts i ∈ pts := fun i hi => by rw [at'_pt pts hi]; exact List.getElem_mem hi
  obtain ⟨u, h1, h2, h4, h5⟩ := wrapLoop_shape (pts := pts) (by omega) m (pts.length + 1) m [] [at' pts m]
  have hv : (wrapping (Obj.ofList pts)).vertices = at' pts m :: (u.map (at' pts)).dropLast := by
    have hclr : (Obj.ofList pts).clearResults = Obj.ofList pts := clearResults_input (h := Obj.ofList pts) rfl
    unfold wrapping
    rw [hclr]
    simp only [Obj.ofList, hme]
    rw [if_neg]
    · simp only [Obj.vertices, Int.toNat_natCast, h5]
      have hne : u.map (at' pts) ≠ [] := by simpa using h4 (by omega)
      simp [List.dropLast_cons_of_ne_nil hne]
    · simp; exact decide_eq_false (by omega)
  have hsub : ∀ v ∈ (wrapping (Obj.ofList pts)).vertices, v ∈ pts := by
    intro v hvv
    rw [hv] at hvv
    rcases List.mem_cons.mp hvv with rfl | hvv
    · exact hmem m hm
    · obtain ⟨i, hi, rfl⟩ := List.mem_map.mp (List.dropLast_subset _ hvv)
      exact hmem i (h1 i hi)
  refine ⟨hsub, ⟨_, _, hv, ?_⟩, ?_, ?_⟩
  · intro p hp
    obtain ⟨j, hj, rfl⟩ := List.mem_iff_getElem.mp hp
    have := hmin j hj
    rwa [at'_pt pts hm]
  · rw [hv]; simp; omega
  · apply convexHull_mono
    intro z hz
    obtain ⟨v, hv, rfl⟩ := List.mem_map.mp hz
    exact List.mem_map_of_mem (f := Vec.pt) (hsub v hv)

/-- **C117**, the hull is right if no point is repeated, no three points are on a line bounding the hull, and doubled areas are
zero or at least EPSILON. -/
theorem C117_hull_partial (pts : List (Vec ℝ)) (h3 : 3 ≤ pts.length) (hg : HullPos (pts.map Vec.pt) EPSILON) :
    convexHull ℝ {z | z ∈ (wrapping (Obj.ofList pts)).vertices.map Vec.pt} = convexHull ℝ {z | z ∈ pts.map Vec.pt} :=
  (C78_convex_hull pts h3 hg).2

/-- A square with its center: `HullPos`, but not in general position. -/
noncomputable def crossPts : List (Vec ℝ) := [⟨0, 0, true⟩, ⟨2, 2, true⟩, ⟨4, 0, true⟩, ⟨4, 4, true⟩, ⟨0, 4, true⟩]

theorem crossPts_ok : HullPos (crossPts.map Vec.pt) EPSILON ∧ ¬ GenPos (crossPts.map Vec.pt) EPSILON := by
  refine ⟨⟨?_, ?_, ?_⟩, ?_⟩
  · intro i j hi hj
    simp only [crossPts, List.map_cons, List.map_nil, List.length_cons, List.length_nil] at hi hj ⊢
    interval_cases i <;> interval_cases j <;> norm_num [Vec.pt]
  · intro i j k hi hj hk
    rw [EPSILON_real]
    simp only [crossPts, List.map_cons, List.map_nil, List.length_cons, List.length_nil] at hi hj hk ⊢
    interval_cases i <;> interval_cases j <;> interval_cases k <;> norm_num [area2, Vec.pt, abs_of_nonneg, abs_of_neg]
  · intro i j k hi hj hk hij hik hjk
    simp only [crossPts, List.map_cons, List.map_nil, List.length_cons, List.length_nil] at hi hj hk ⊢
    simp only [List.mem_cons, List.not_mem_nil, or_false, exists_eq_or_imp, exists_eq_left]
    interval_cases i <;> interval_cases j <;> interval_cases k <;> first
      | (exfalso; omega)
      | norm_num [area2, Vec.pt]
  · intro h
    have := h 0 1 3 (by simp [crossPts]) (by simp [crossPts]) (by simp [crossPts]) (by decide) (by decide) (by decide)
    rw [EPSILON_real] at this
    norm_num [crossPts, area2, Vec.pt] at this

/-- Four points, three of them on the line of the first edge. -/
noncomputable def edgePts : List (Vec ℝ) := [⟨0, 0, true⟩, ⟨1, 0, true⟩, ⟨2, 0, true⟩, ⟨1, 1, true⟩]

/-- **C117 is false** for three points on a line: of (0,0), (1,0), (2,0), (1,1) the corner (2,0) is lost. -/
theorem C117_collinear_refuted : (wrapping (Obj.ofList edgePts)).vertices = [⟨0, 0, true⟩, ⟨1, 0, true⟩, ⟨1, 1, true⟩] ∧
    ((2, 0) : Pt) ∉ convexHull ℝ {z | z ∈ (wrapping (Obj.ofList edgePts)).vertices.map Vec.pt} := by
  have hmi : minPointIndex edgePts = 0 := by
    norm_num [edgePts, minPointIndex, List.range, List.range.loop, minStep, at']
  have hcl : (Obj.ofList edgePts).clearResults = Obj.ofList edgePts := clearResults_input (h := Obj.ofList edgePts) rfl
  have n0 : nextIndex edgePts 0 [] = 1 := by
    unfold nextIndex
    rw [show edgePts.length = 4 from rfl, show firstCandidate 4 0 [] = 1 from rfl]
    simp only [show List.range' (1 + 1) (4 - (1 + 1)) = [2, 3] from rfl, List.foldl_cons, List.foldl_nil]
    norm_num [candStep, edgePts, at', Tri.dsa, EPSILON_real, Vec.dist2, PyrusGeom.sq]
  have n1 : nextIndex edgePts 1 [1] = 3 := by
    unfold nextIndex
    rw [show edgePts.length = 4 from rfl, show firstCandidate 4 1 [1] = 0 from rfl]
    simp only [show List.range' (0 + 1) (4 - (0 + 1)) = [1, 2, 3] from rfl, List.foldl_cons, List.foldl_nil]
    norm_num [candStep, edgePts, at', Tri.dsa, EPSILON_real, Vec.dist2, PyrusGeom.sq]
  have n2 : nextIndex edgePts 3 [1, 3] = 0 := by
    unfold nextIndex
    rw [show edgePts.length = 4 from rfl, show firstCandidate 4 3 [1, 3] = 0 from rfl]
    simp only [show List.range' (0 + 1) (4 - (0 + 1)) = [1, 2, 3] from rfl, List.foldl_cons, List.foldl_nil]
    norm_num [candStep, edgePts, at', Tri.dsa, EPSILON_real, Vec.dist2, PyrusGeom.sq]
  have hv : (wrapping (Obj.ofList edgePts)).vertices = [⟨0, 0, true⟩, ⟨1, 0, true⟩, ⟨1, 1, true⟩] := by
    unfold wrapping
    rw [hcl]
    simp only [Obj.ofList, hmi]
    rw [if_neg (by simp [edgePts])]
    simp only [Obj.vertices, wrapLoop, Int.toNat_zero, n0, n1, n2, show edgePts.length = 4 from rfl, List.nil_append,
      List.cons_append]
    simp [at', edgePts]
  refine ⟨hv, ?_⟩
  rw [hv]
  intro h
  have hsub : convexHull ℝ {z : Pt | z ∈ ([⟨0, 0, true⟩, ⟨1, 0, true⟩, ⟨1, 1, true⟩] : List (Vec ℝ)).map Vec.pt} ⊆
      {z : Pt | 0 ≤ area2 (1, 0) (1, 1) z} := by
    refine convexHull_min ?_ (convex_left _ _)
    intro z hz
    simp only [List.map_cons, List.map_nil, List.mem_cons, List.not_mem_nil, or_false, Set.mem_ofPred_eq] at hz
    rcases hz with rfl | rfl | rfl <;> norm_num [area2, Vec.pt]
  have := hsub h
  norm_num [area2] at this

/-- A triangle with one corner given twice. -/
noncomputable def twicePts : List (Vec ℝ) := [⟨0, 0, true⟩, ⟨0, 0, true⟩, ⟨1, 0, true⟩, ⟨0, 1, true⟩]

/-- **C117 is false** for repeated points: if the least point is given twice, only these two are returned. -/
theorem C117_repeated_refuted : (wrapping (Obj.ofList twicePts)).vertices = [⟨0, 0, true⟩, ⟨0, 0, true⟩] ∧
    ((1, 0) : Pt) ∉ convexHull ℝ {z | z ∈ (wrapping (Obj.ofList twicePts)).vertices.map Vec.pt} := by
  have hmi : minPointIndex twicePts = 0 := by
    norm_num [twicePts, minPointIndex, List.range, List.range.loop, minStep, at']
  have hcl : (Obj.ofList twicePts).clearResults = Obj.ofList twicePts :=
    clearResults_input (h := Obj.ofList twicePts) rfl
  have n0 : nextIndex twicePts 0 [] = 1 := by
    unfold nextIndex
    rw [show twicePts.length = 4 from rfl, show firstCandidate 4 0 [] = 1 from rfl]
    simp only [show List.range' (1 + 1) (4 - (1 + 1)) = [2, 3] from rfl, List.foldl_cons, List.foldl_nil]
    norm_num [candStep, twicePts, at', Tri.dsa, EPSILON_real, Vec.dist2, PyrusGeom.sq]
  have n1 : nextIndex twicePts 1 [1] = 0 := by
    unfold nextIndex
    rw [show twicePts.length = 4 from rfl, show firstCandidate 4 1 [1] = 0 from rfl]
    simp only [show List.range' (0 + 1) (4 - (0 + 1)) = [1, 2, 3] from rfl, List.foldl_cons, List.foldl_nil]
    norm_num [candStep, twicePts, at', Tri.dsa, EPSILON_real, Vec.dist2, PyrusGeom.sq]
  have hv : (wrapping (Obj.ofList twicePts)).vertices = [⟨0, 0, true⟩, ⟨0, 0, true⟩] := by
    unfold wrapping
    rw [hcl]
    simp only [Obj.ofList, hmi]
    rw [if_neg (by simp [twicePts])]
    simp only [Obj.vertices, wrapLoop, Int.toNat_zero, n0, n1, show twicePts.length = 4 from rfl, List.nil_append,
      List.cons_append]
    simp [at', twicePts]
  refine ⟨hv, ?_⟩
  rw [hv]
  intro h
  have : {z : Pt | z ∈ ([⟨0, 0, true⟩, ⟨0, 0, true⟩] : List (Vec ℝ)).map Vec.pt} = {((0, 0) : Pt)} := by
    ext z; simp [Vec.pt]
  rw [this, convexHull_singleton] at h
  simp at h

/-- Five points: (0,0), (1,0) and (3,0) on a line, one point on each side of it. -/
noncomputable def splitPts : List (Vec ℝ) :=
  [⟨0, 0, true⟩, ⟨1, 0, true⟩, ⟨0, 1, true⟩, ⟨3, 0, true⟩, ⟨0, -1, true⟩]

theorem directFold_mem (pts : List (Vec ℝ)) (ps : List (ℕ × ℕ)) : ∀ s : List (Vec ℝ) × List (Seg ℝ), ∀ e ∈ s.2,
    e ∈ (ps.foldl (directStep pts) s).2 := by
  induction ps with
  | nil => intro s e he; exact he
  | cons p ps ih =>
    intro s e he
    rw [List.foldl_cons]
    refine ih _ e ?_
    unfold directStep
    simp only
    split
    · exact he
    · exact List.mem_append_left _ he

/-- **C117 is false** for the direct method and three points on a line: a point on the line of a pair makes it forget the side
of the points before, so that it returns an edge with input points strictly on both sides. -/
theorem C117_direct_refuted (srt) : Seg.ofPoints ⟨0, 0, true⟩ ⟨1, 0, true⟩ ∈ (direct srt (Obj.ofList splitPts)).getEdges ∧
    (∃ p ∈ splitPts, area2 (0, 0) (1, 0) p.pt < 0) ∧ ∃ p ∈ splitPts, 0 < area2 (0, 0) (1, 0) p.pt := by
  refine ⟨?_, ⟨⟨0, -1, true⟩, by simp [splitPts], by norm_num [area2, Vec.pt]⟩,
    ⟨⟨0, 1, true⟩, by simp [splitPts], by norm_num [area2, Vec.pt]⟩⟩
  have hcl : (Obj.ofList splitPts).clearResults = Obj.ofList splitPts :=
    clearResults_input (h := Obj.ofList splitPts) rfl
  have hst : (directStep splitPts ([], []) (0, 1)).2 = [Seg.ofPoints ⟨0, 0, true⟩ ⟨1, 0, true⟩] := by
    have hk : directK splitPts 0 1 ((at' splitPts 1).sub (at' splitPts 0)) (at' splitPts 0) (List.range splitPts.length)
        (num 0) = some (-1) := by
      rw [show List.range splitPts.length = [0, 1, 2, 3, 4] from rfl]
      norm_num [directK, splitPts, at', Vec.sub, Vec.ofXY, Vec.outerProduct, Vec.r2, EPSILON_real, fabs_real]
    unfold directStep
    simp only [hk]
    rw [if_pos (by norm_num)]
    simp [at', splitPts]
  unfold direct
  rw [hcl, if_neg (by simp [Obj.ofList, splitPts])]
  simp only [Obj.getEdges]
  change _ ∈ ((directPairs 5).foldl (directStep splitPts) ([], [])).2
  rw [show directPairs 5 = (0, 1) :: (directPairs 5).tail from rfl, List.foldl_cons]
  refine directFold_mem _ _ _ _ ?_
  rw [hst]; simp

/-- **C117** The direct method keeps a pair of points if no point is strictly on the other side and no point that is nearly on the
line is nearer to the first of the two than the second is: any input, repeated points and points on a line included. -/
theorem C117_direct_keeps (srt) (pts : List (Vec ℝ)) (h3 : 3 ≤ pts.length) {i j : ℕ} (hij : i < j) (hj : j < pts.length)
    (σ : ℝ) (hσ : σ = 1 ∨ σ = -1)
    (hside : ∀ (k : ℕ) (hk : k < pts.length), 0 ≤ σ * area2 (pts[i]'(hij.trans hj)).pt pts[j].pt pts[k].pt)
    (hfar : ∀ (k : ℕ) (hk : k < pts.length), k ≠ i → k ≠ j →
      |area2 (pts[i]'(hij.trans hj)).pt pts[j].pt pts[k].pt| < EPSILON →
      (pts[j].x - (pts[i]'(hij.trans hj)).x) ^ 2 + (pts[j].y - (pts[i]'(hij.trans hj)).y) ^ 2 ≤
        (pts[k].x - (pts[i]'(hij.trans hj)).x) ^ 2 + (pts[k].y - (pts[i]'(hij.trans hj)).y) ^ 2) :
    Seg.ofPoints (pts[i]'(hij.trans hj)) pts[j] ∈ (direct srt (Obj.ofList pts)).getEdges ∨
      Seg.ofPoints pts[j] (pts[i]'(hij.trans hj)) ∈ (direct srt (Obj.ofList pts)).getEdges := by
  have hi := hij.trans hj
  have hat : ∀ k (hk : k < pts.length), at' pts k = pts[k] := fun k hk => by simp [at', hk]
  have hK : ∀ (ks : List ℕ), (∀ k ∈ ks, k < pts.length) → ∀ last : ℝ, 0 ≤ σ * last →
      ∃ v, directK pts i j (pts[j].sub pts[i]) pts[i] ks last = some v := by
    intro ks
    induction ks with
    | nil => intro _ last _; exact ⟨last, rfl⟩
    | cons k ks ih =>
      intro hks last hl
      have hk := hks k (by simp)
      have ih := ih fun t ht => hks t (List.mem_cons_of_mem _ ht)
      rw [directK]
      by_cases hc : k = i ∨ k = j
      · rw [if_pos (by simpa using hc)]; exact ih last hl
      · rw [if_neg (by simpa using hc)]
        push Not at hc
        have hop : (pts[j].sub pts[i]).outerProduct (pts[k].sub pts[i]) = area2 pts[i].pt pts[j].pt pts[k].pt := by
          simp only [Vec.outerProduct, Vec.sub_x, Vec.sub_y, area2, Vec.pt]
        simp only [hat k hk, hop, fabs_real, num_real, Nat.cast_zero]
        rw [if_neg, if_neg]
        · exact ih _ (hside k hk)
        · have hs := hside k hk
          rcases hσ with rfl | rfl <;> nlinarith
        · rintro ⟨h1, h2⟩
          have := hfar k hk hc.1 hc.2 h1
          simp only [Vec.r2, Vec.sub_x, Vec.sub_y] at h2
          nlinarith
  have hcl : (Obj.ofList pts).clearResults = Obj.ofList pts := clearResults_input (h := Obj.ofList pts) rfl
  unfold direct
  rw [hcl, if_neg (by simpa [Obj.ofList] using h3)]
  simp only [Obj.getEdges]
  change _ ∈ ((directPairs pts.length).foldl (directStep pts) ([], [])).2 ∨
    _ ∈ ((directPairs pts.length).foldl (directStep pts) ([], [])).2
  obtain ⟨l1, l2, hl⟩ := List.append_of_mem (mem_directPairs.mpr ⟨hij, hj⟩)
  rw [hl, List.foldl_append, List.foldl_cons]
  generalize l1.foldl (directStep pts) ([], []) = s
  obtain ⟨v, hv⟩ := hK (List.range pts.length) (fun k hk => List.mem_range.mp hk) (num 0) (by simp)
  have hst : (directStep pts s (i, j)).2 =
      s.2 ++ [if v < num 0 then Seg.ofPoints pts[i] pts[j] else Seg.ofPoints pts[j] pts[i]] := by
    unfold directStep
    simp only [hat i hi, hat j hj, hv]
  by_cases h0 : v < num 0
  · rw [if_pos h0] at hst
    exact Or.inl (directFold_mem _ _ _ _ (by rw [hst]; simp))
  · rw [if_neg h0] at hst
    exact Or.inr (directFold_mem _ _ _ _ (by rw [hst]; simp))

/-- The middle of the side from (-1,0) to (1,0) is as far from one end as from the other: the two halves are kept. -/
example (srt : (Vec ℝ → Vec ℝ → Bool) → List (Vec ℝ) → List (Vec ℝ)) : Seg.ofPoints ⟨0, 0, true⟩ ⟨1, 0, true⟩ ∈ (direct srt (Obj.ofList [⟨0, 0, true⟩, ⟨1, 0, true⟩, ⟨-1, 0, true⟩,
      ⟨0, 1, true⟩])).getEdges ∨ Seg.ofPoints ⟨1, 0, true⟩ ⟨0, 0, true⟩ ∈ (direct srt (Obj.ofList [⟨0, 0, true⟩, ⟨1, 0, true⟩,
      ⟨-1, 0, true⟩, ⟨0, 1, true⟩])).getEdges := by
  refine C117_direct_keeps srt [⟨0, 0, true⟩, ⟨1, 0, true⟩, ⟨-1, 0, true⟩, ⟨0, 1, true⟩] (by simp) (i := 0) (j := 1)
    (by simp) (by simp) 1 (Or.inl rfl) (fun k hk => ?_) (fun k hk h0 h1 => ?_)
  · have : k = 0 ∨ k = 1 ∨ k = 2 ∨ k = 3 := by simp at hk; omega
    rcases this with rfl | rfl | rfl | rfl <;> norm_num [area2, Vec.pt]
  · have : k = 2 ∨ k = 3 := by simp at hk; omega
    rcases this with rfl | rfl <;> norm_num [area2, Vec.pt]

end Hull
end PyrusGeom
