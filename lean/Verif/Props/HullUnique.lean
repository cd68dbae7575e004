import Verif.Props.HullArea

/-! C177: the computed hull depends only on the convex hull of the input, not on the order of the points or on points inside. -/

namespace PyrusGeom

open Spec Hull

/-! ## A strictly convex polygon is determined by its convex hull -/

theorem cyclicPairs_next {α : Type} {l : List α} {i : ℕ} (hi : i + 1 < l.length) : (l[i], l[i + 1]) ∈ cyclicPairs l := by
  rw [cyclicPairs_eq_zip]
  refine List.mem_iff_getElem.mpr ⟨i, by simp; omega, ?_⟩
  rw [List.getElem_zip, List.getElem_rotate]
  simp [Nat.mod_eq_of_lt hi]

theorem Spec.StrictConvex.rotate {l : List Pt} (H : StrictConvex l) (n : ℕ) : StrictConvex (l.rotate n) := by
  refine ⟨by simpa using H.three, List.nodup_rotate.mpr H.nodup, ?_⟩
  intro e he z hz h1 h2
  exact H.left e ((cyclicPairs_rotate_perm l n).subset he) z (List.mem_rotate.mp hz) h1 h2

/-- The vertices are determined as a set. -/
theorem Spec.StrictConvex.mem_iff {l l' : List Pt} (H : StrictConvex l) (H' : StrictConvex l')
    (hull : convexHull ℝ {z | z ∈ l} = convexHull ℝ {z | z ∈ l'}) (z : Pt) : z ∈ l ↔ z ∈ l' := by
  have h := C171_extreme H
  rw [hull, C171_extreme H'] at h
  exact (Set.ext_iff.mp h z).symm

/-- The next vertex is determined. -/
theorem Spec.StrictConvex.next_unique {l l' : List Pt} (H : StrictConvex l) (H' : StrictConvex l')
    (hm : ∀ z, z ∈ l ↔ z ∈ l') {m n n' : Pt} (h : (m, n) ∈ cyclicPairs l) (h' : (m, n') ∈ cyclicPairs l') : n = n' := by
  by_contra hne
  have a1 := H.left _ h n' ((hm n').mpr (snd_mem_of_cyclicPairs h')) (H'.ne h').symm (Ne.symm hne)
  have a2 := H'.left _ h' n ((hm n).mp (snd_mem_of_cyclicPairs h)) (H.ne h).symm hne
  have : area2 m n' n = -area2 m n n' := by unfold area2; ring
  simp only at a1 a2
  linarith

/-- **C177** Two strictly convex counter-clockwise polygons with the same convex hull and the same first vertex are equal. -/
theorem C177_unique_head {l l' : List Pt} (H : StrictConvex l) (H' : StrictConvex l')
    (hull : convexHull ℝ {z | z ∈ l} = convexHull ℝ {z | z ∈ l'}) (hh : l.head? = l'.head?) : l = l' := by
  have hm := H.mem_iff H' hull
  have hl : l.length = l'.length :=
    ((List.perm_ext_iff_of_nodup H.nodup H'.nodup).mpr hm).length_eq
  have h3 := H.three
  have key : ∀ i (hi : i < l.length) (hi' : i < l'.length), l[i] = l'[i] := by
    intro i
    induction i with
    | zero =>
      intro hi hi'
      rw [List.head?_eq_getElem?, List.head?_eq_getElem?, List.getElem?_eq_getElem hi, List.getElem?_eq_getElem hi'] at hh
      exact Option.some.inj hh
    | succ i ih =>
      intro hi hi'
      have e := cyclicPairs_next hi'
      rw [← ih (by omega) (by omega)] at e
      exact H.next_unique H' hm (cyclicPairs_next hi) e
  exact List.ext_getElem hl key

/-- **C177** Two strictly convex counter-clockwise polygons with the same convex hull are equal up to the first vertex. -/
theorem C177_unique {l l' : List Pt} (H : StrictConvex l) (H' : StrictConvex l') :
    convexHull ℝ {z | z ∈ l} = convexHull ℝ {z | z ∈ l'} ↔ l ~r l' := by
  constructor
  · intro hull
    have h3 := H.three
    have h0 : l[0] ∈ l' := (H.mem_iff H' hull _).mp (List.getElem_mem _)
    obtain ⟨s, t, hst⟩ := List.append_of_mem h0
    have hr : l'.rotate s.length = l[0] :: t ++ s := by
      rw [hst]; exact List.rotate_append_length_eq _ _
    have e : l = l'.rotate s.length := by
      refine C177_unique_head H (H'.rotate _) ?_ ?_
      · rw [hull]; congr 1; ext z; exact List.mem_rotate.symm
      · rw [hr, List.head?_eq_getElem?, List.getElem?_eq_getElem (by omega)]; rfl
    rw [e]
    exact (List.IsRotated.symm ⟨s.length, rfl⟩)
  · rintro ⟨n, rfl⟩
    congr 1; ext z; exact List.mem_rotate.symm

/-! ## The guard in terms of members -/

theorem hullPos_iff {l : List Pt} {e : ℝ} : HullPos l e ↔ l.Nodup ∧
    (∀ a ∈ l, ∀ b ∈ l, ∀ c ∈ l, area2 a b c ≠ 0 → e ≤ |area2 a b c|) ∧
    (∀ a ∈ l, ∀ b ∈ l, ∀ c ∈ l, a ≠ b → a ≠ c → b ≠ c → area2 a b c = 0 →
      ∃ p ∈ l, ∃ q ∈ l, area2 a b p < 0 ∧ 0 < area2 a b q) := by
  constructor
  · intro h
    refine ⟨?_, ?_, ?_⟩
    · rw [List.nodup_iff_injective_getElem]
      intro i j hij
      exact Fin.ext (h.inj i j i.2 j.2 hij)
    · intro a ha b hb c hc
      obtain ⟨i, hi, rfl⟩ := List.mem_iff_getElem.mp ha
      obtain ⟨j, hj, rfl⟩ := List.mem_iff_getElem.mp hb
      obtain ⟨k, hk, rfl⟩ := List.mem_iff_getElem.mp hc
      exact h.gap i j k hi hj hk
    · intro a ha b hb c hc h1 h2 h3
      obtain ⟨i, hi, rfl⟩ := List.mem_iff_getElem.mp ha
      obtain ⟨j, hj, rfl⟩ := List.mem_iff_getElem.mp hb
      obtain ⟨k, hk, rfl⟩ := List.mem_iff_getElem.mp hc
      exact h.inner i j k hi hj hk (by rintro rfl; exact h1 rfl) (by rintro rfl; exact h2 rfl) (by rintro rfl; exact h3 rfl)
  · rintro ⟨h1, h2, h3⟩
    have hinj : ∀ i j (hi : i < l.length) (hj : j < l.length), l[i] = l[j] → i = j :=
      fun i j hi hj h => (h1.getElem_inj_iff).mp h
    refine ⟨hinj, ?_, ?_⟩
    · intro i j k hi hj hk
      exact h2 _ (List.getElem_mem _) _ (List.getElem_mem _) _ (List.getElem_mem _)
    · intro i j k hi hj hk a b c
      exact h3 _ (List.getElem_mem _) _ (List.getElem_mem _) _ (List.getElem_mem _) (fun h => a (hinj _ _ _ _ h))
        (fun h => b (hinj _ _ _ _ h)) (fun h => c (hinj _ _ _ _ h))

/-- Fewer points with the same convex hull satisfy the guard again. -/
theorem Spec.HullPos.sub {l l' : List Pt} {e : ℝ} (h : HullPos l e) (hnd : l'.Nodup) (hsub : ∀ z ∈ l', z ∈ l)
    (hull : convexHull ℝ {z | z ∈ l'} = convexHull ℝ {z | z ∈ l}) : HullPos l' e := by
  obtain ⟨-, h2, h3⟩ := hullPos_iff.mp h
  refine hullPos_iff.mpr ⟨hnd, fun a ha b hb c hc => h2 a (hsub a ha) b (hsub b hb) c (hsub c hc), ?_⟩
  intro a ha b hb c hc h4 h5 h6 h7
  obtain ⟨p, hp, q, hq, hpn, hqp⟩ := h3 a (hsub a ha) b (hsub b hb) c (hsub c hc) h4 h5 h6 h7
  have hp' : p ∈ convexHull ℝ {z | z ∈ l'} := by rw [hull]; exact subset_convexHull ℝ _ hp
  have hq' : q ∈ convexHull ℝ {z | z ∈ l'} := by rw [hull]; exact subset_convexHull ℝ _ hq
  obtain ⟨p', g1, g2⟩ : ∃ p' ∈ l', area2 a b p' < 0 := by
    by_contra hc; push Not at hc
    have : 0 ≤ area2 a b p := convexHull_min (fun z hz => hc z hz) (convex_left a b) hp'
    linarith
  obtain ⟨q', g3, g4⟩ : ∃ q' ∈ l', 0 < area2 a b q' := by
    by_contra hc; push Not at hc
    have : 0 ≤ area2 b a q := convexHull_min (fun z hz => by
      have := hc z hz
      have e : area2 b a z = -area2 a b z := by unfold area2; ring
      rw [Set.mem_ofPred_eq, e]; linarith) (convex_left b a) hq'
    have e : area2 b a q = -area2 a b q := by unfold area2; ring
    linarith
  exact ⟨p', g1, q', g3, g2, g4⟩

/-! ## Computed hulls -/

theorem lexMin_hull {l l' : List Pt} {v v' : Pt} (hv : v ∈ l) (hv' : v' ∈ l') (hm : ∀ z ∈ l, ¬ LexLt z v) (hm' : ∀ z ∈ l', ¬ LexLt z v')
    (h : ∀ z, z ∈ l ↔ z ∈ l') : v = v' := by
  rcases LexLt.total v v' with h1 | h1 | h1
  · exact absurd h1 (hm' v ((h v).mp hv))
  · exact h1
  · exact absurd h1 (hm v' ((h v').mpr hv'))

/-- **C177** The coordinates of the vertices computed by gift wrapping depend only on the convex hull of the input. -/
theorem C177_hull_partial (pts pts' : List (Vec ℝ)) (h3 : 3 ≤ pts.length) (h3' : 3 ≤ pts'.length)
    (hg : HullPos (pts.map Vec.pt) EPSILON) (hg' : HullPos (pts'.map Vec.pt) EPSILON) :
    (wrapping (Obj.ofList pts)).vertices.map Vec.pt = (wrapping (Obj.ofList pts')).vertices.map Vec.pt ↔
    convexHull ℝ {z | z ∈ pts.map Vec.pt} = convexHull ℝ {z | z ∈ pts'.map Vec.pt} := by
  obtain ⟨H, he⟩ := C78_convex_hull pts h3 hg
  obtain ⟨H', he'⟩ := C78_convex_hull pts' h3' hg'
  constructor
  · intro h
    rw [← he, ← he', h]
  · intro h
    have hull : convexHull ℝ {z | z ∈ (wrapping (Obj.ofList pts)).vertices.map Vec.pt} =
        convexHull ℝ {z | z ∈ (wrapping (Obj.ofList pts')).vertices.map Vec.pt} := by rw [he, he', h]
    refine C177_unique_head H H' hull ?_
    have hm := H.mem_iff H' hull
    obtain ⟨q1, ⟨v, t, hv, hl⟩, -, -⟩ := C78_wrapping pts h3 hg (fun _ l => l) _ rfl
    obtain ⟨q1', ⟨v', t', hv', hl'⟩, -, -⟩ := C78_wrapping pts' h3' hg' (fun _ l => l) _ rfl
    have : v.pt = v'.pt := by
      refine lexMin_hull (l := (wrapping (Obj.ofList pts)).vertices.map Vec.pt)
        (l' := (wrapping (Obj.ofList pts')).vertices.map Vec.pt) (by rw [hv]; simp) (by rw [hv']; simp) ?_ ?_ hm
      · intro z hz
        obtain ⟨p, hp, rfl⟩ := List.mem_map.mp hz
        exact hl p (q1 p hp)
      · intro z hz
        obtain ⟨p, hp, rfl⟩ := List.mem_map.mp hz
        exact hl' p (q1' p hp)
    rw [hv, hv']
    simp [this]

theorem wrapping_edges (pts : List (Vec ℝ)) (h3 : 3 ≤ pts.length) (hg : HullPos (pts.map Vec.pt) EPSILON) :
    (wrapping (Obj.ofList pts)).getEdges =
      hullEdges ((wrapping (Obj.ofList pts)).vertices ++ (wrapping (Obj.ofList pts)).vertices.head?.toList) := by
  obtain ⟨m, u, hI, hu, hcyc, hm, hmin, hin, hal, hv, he⟩ := wrapping_spec hg h3 (Obj.ofList pts) rfl rfl
  rw [Obj.getEdges, he, Obj.vertices, hal, hv]
  rfl

/-- **C177** Leaving out points without changing the convex hull, in any order, gives the same vertices and edges. -/
theorem C177_subset_partial (pts pts' : List (Vec ℝ)) (h3 : 3 ≤ pts.length) (hg : HullPos (pts.map Vec.pt) EPSILON)
    (hnd : pts'.Nodup) (hsub : ∀ p ∈ pts', p ∈ pts)
    (hull : convexHull ℝ {z | z ∈ pts'.map Vec.pt} = convexHull ℝ {z | z ∈ pts.map Vec.pt}) :
    (wrapping (Obj.ofList pts')).vertices = (wrapping (Obj.ofList pts)).vertices ∧
    (wrapping (Obj.ofList pts')).getEdges = (wrapping (Obj.ofList pts)).getEdges := by
  have hndp : (pts.map Vec.pt).Nodup := (hullPos_iff.mp hg).1
  have hinj : ∀ a ∈ pts, ∀ b ∈ pts, a.pt = b.pt → a = b := fun a ha b hb h => List.inj_on_of_nodup_map hndp ha hb h
  have hnd' : (pts'.map Vec.pt).Nodup := hnd.map_on fun a ha b hb h => hinj a (hsub a ha) b (hsub b hb) h
  have hg' : HullPos (pts'.map Vec.pt) EPSILON := by
    refine hg.sub hnd' ?_ hull
    intro z hz
    obtain ⟨p, hp, rfl⟩ := List.mem_map.mp hz
    exact List.mem_map_of_mem (hsub p hp)
  obtain ⟨H, he⟩ := C78_convex_hull pts h3 hg
  have h3' : 3 ≤ pts'.length := by
    have hs : (wrapping (Obj.ofList pts)).vertices.map Vec.pt ⊆ pts'.map Vec.pt := by
      intro z hz
      have hz' : z ∈ (convexHull ℝ {z | z ∈ (wrapping (Obj.ofList pts)).vertices.map Vec.pt}).extremePoints ℝ := by
        rw [C171_extreme H]; exact hz
      rw [he, ← hull] at hz'
      have hz2 := extremePoints_convexHull_subset hz'
      exact hz2
    have := (H.nodup.subperm hs).length_le
    have h3 := H.three
    simp only [List.length_map] at this h3
    omega
  have hv : (wrapping (Obj.ofList pts')).vertices = (wrapping (Obj.ofList pts)).vertices := by
    have h := (C177_hull_partial pts' pts h3' h3 hg' hg).mpr hull
    obtain ⟨q1, -⟩ := C78_wrapping pts h3 hg (fun _ l => l) _ rfl
    obtain ⟨q1', -⟩ := C78_wrapping pts' h3' hg' (fun _ l => l) _ rfl
    refine List.ext_getElem (by simpa using congrArg List.length h) ?_
    intro i hi hi'
    refine hinj _ (hsub _ (q1' _ (List.getElem_mem _))) _ (q1 _ (List.getElem_mem _)) ?_
    have := List.getElem_of_eq h (i := i) (by simpa using hi)
    simpa using this
  refine ⟨hv, ?_⟩
  rw [wrapping_edges pts' h3' hg', wrapping_edges pts h3 hg, hv]

/-- **C177** The order of the input does not matter. -/
theorem C177_order_partial (pts pts' : List (Vec ℝ)) (h3 : 3 ≤ pts.length) (hg : HullPos (pts.map Vec.pt) EPSILON)
    (hp : pts'.Perm pts) :
    (wrapping (Obj.ofList pts')).vertices = (wrapping (Obj.ofList pts)).vertices ∧
    (wrapping (Obj.ofList pts')).getEdges = (wrapping (Obj.ofList pts)).getEdges := by
  have hndp : (pts.map Vec.pt).Nodup := (hullPos_iff.mp hg).1
  refine C177_subset_partial pts pts' h3 hg (hp.nodup_iff.mpr (List.Nodup.of_map _ hndp)) (fun p h => hp.subset h) ?_
  congr 1; ext z; exact (hp.map Vec.pt).mem_iff

/-- **C177** The hull of the hull is the hull. -/
theorem C177_idempotent_partial (pts : List (Vec ℝ)) (h3 : 3 ≤ pts.length) (hg : HullPos (pts.map Vec.pt) EPSILON) :
    let h := wrapping (Obj.ofList pts)
    (wrapping (Obj.ofList h.vertices)).vertices = h.vertices ∧ (wrapping (Obj.ofList h.vertices)).getEdges = h.getEdges := by
  obtain ⟨H, he⟩ := C78_convex_hull pts h3 hg
  obtain ⟨q1, -⟩ := C78_wrapping pts h3 hg (fun _ l => l) _ rfl
  exact C177_subset_partial pts _ h3 hg (List.Nodup.of_map _ H.nodup) q1 he

/-- **C177** Where Graham scan computes the hull, it gives the vertices of gift wrapping in the opposite order, up to the first vertex. -/
theorem C177_graham_partial (pts : List (Vec ℝ)) (h3 : 3 ≤ pts.length) (hg : HullPos (pts.map Vec.pt) EPSILON)
    {o : Vec ℝ} {h' : Obj ℝ} (g : GrahamHull pts o h') :
    h'.vertices.reverse ~r (wrapping (Obj.ofList pts)).vertices := by
  obtain ⟨H, he⟩ := C78_convex_hull pts h3 hg
  obtain ⟨q1, -⟩ := C78_wrapping pts h3 hg (fun _ l => l) _ rfl
  have hndp : (pts.map Vec.pt).Nodup := (hullPos_iff.mp hg).1
  have hinj : ∀ a ∈ pts, ∀ b ∈ pts, a.pt = b.pt → a = b := fun a ha b hb h => List.inj_on_of_nodup_map hndp ha hb h
  have H' := g.convex
  obtain ⟨n, hn⟩ := (C177_unique H' H).mp (by
    rw [he, ← g.hull]; congr 1; ext z; exact List.mem_reverse)
  refine ⟨n, ?_⟩
  rw [← List.map_reverse, ← List.map_rotate] at hn
  refine List.ext_getElem (by simpa using congrArg List.length hn) ?_
  intro i hi hi'
  refine hinj _ ?_ _ (q1 _ (List.getElem_mem _)) ?_
  · have := List.getElem_mem hi
    exact g.mem _ (List.mem_reverse.mp (List.mem_rotate.mp this))
  · have := List.getElem_of_eq hn (i := i) (by simpa using hi)
    simpa using this

/-- Four points, doubled areas of less than `EPSILON` among them. -/
noncomputable def flatPts : List (Vec ℝ) :=
  [⟨0, 0, true⟩, ⟨1000, 0, true⟩, ⟨100, 1 / 2000000000, true⟩, ⟨1, 1 / 200000000, true⟩]

/-- The same points, the last two exchanged. -/
noncomputable def flatPts' : List (Vec ℝ) :=
  [⟨0, 0, true⟩, ⟨1000, 0, true⟩, ⟨1, 1 / 200000000, true⟩, ⟨100, 1 / 2000000000, true⟩]

theorem flatPts_wrap : (wrapping (Obj.ofList flatPts)).vertices = [⟨0, 0, true⟩, ⟨1, 1 / 200000000, true⟩] := by
  have hmi : minPointIndex flatPts = 0 := by
    norm_num [flatPts, minPointIndex, List.range, List.range.loop, minStep, at']
  have hcl : (Obj.ofList flatPts).clearResults = Obj.ofList flatPts := clearResults_input (h := Obj.ofList flatPts) rfl
  have n0 : nextIndex flatPts 0 [] = 3 := by
    unfold nextIndex
    rw [show flatPts.length = 4 from rfl, show firstCandidate 4 0 [] = 1 from rfl]
    simp only [show List.range' (1 + 1) (4 - (1 + 1)) = [2, 3] from rfl, List.foldl_cons, List.foldl_nil]
    norm_num [candStep, flatPts, at', Tri.dsa, EPSILON_real, Vec.dist2, PyrusGeom.sq]
  have n1 : nextIndex flatPts 3 [3] = 0 := by
    unfold nextIndex
    rw [show flatPts.length = 4 from rfl, show firstCandidate 4 3 [3] = 0 from rfl]
    simp only [show List.range' (0 + 1) (4 - (0 + 1)) = [1, 2, 3] from rfl, List.foldl_cons, List.foldl_nil]
    norm_num [candStep, flatPts, at', Tri.dsa, EPSILON_real, Vec.dist2, PyrusGeom.sq]
  unfold wrapping
  rw [hcl]
  simp only [Obj.ofList, hmi]
  rw [if_neg (by simp [flatPts])]
  simp only [Obj.vertices, wrapLoop, Int.toNat_zero, n0, n1, show flatPts.length = 4 from rfl, List.nil_append,
    List.cons_append]
  simp [at', flatPts]

theorem flatPts'_wrap : (wrapping (Obj.ofList flatPts')).vertices =
    [⟨0, 0, true⟩, ⟨100, 1 / 2000000000, true⟩, ⟨1, 1 / 200000000, true⟩] := by
  have hmi : minPointIndex flatPts' = 0 := by
    norm_num [flatPts', minPointIndex, List.range, List.range.loop, minStep, at']
  have hcl : (Obj.ofList flatPts').clearResults = Obj.ofList flatPts' := clearResults_input (h := Obj.ofList flatPts') rfl
  have n0 : nextIndex flatPts' 0 [] = 3 := by
    unfold nextIndex
    rw [show flatPts'.length = 4 from rfl, show firstCandidate 4 0 [] = 1 from rfl]
    simp only [show List.range' (1 + 1) (4 - (1 + 1)) = [2, 3] from rfl, List.foldl_cons, List.foldl_nil]
    norm_num [candStep, flatPts', at', Tri.dsa, EPSILON_real, Vec.dist2, PyrusGeom.sq]
  have n1 : nextIndex flatPts' 3 [3] = 2 := by
    unfold nextIndex
    rw [show flatPts'.length = 4 from rfl, show firstCandidate 4 3 [3] = 0 from rfl]
    simp only [show List.range' (0 + 1) (4 - (0 + 1)) = [1, 2, 3] from rfl, List.foldl_cons, List.foldl_nil]
    norm_num [candStep, flatPts', at', Tri.dsa, EPSILON_real, Vec.dist2, PyrusGeom.sq]
  have n2 : nextIndex flatPts' 2 [3, 2] = 0 := by
    unfold nextIndex
    rw [show flatPts'.length = 4 from rfl, show firstCandidate 4 2 [3, 2] = 0 from rfl]
    simp only [show List.range' (0 + 1) (4 - (0 + 1)) = [1, 2, 3] from rfl, List.foldl_cons, List.foldl_nil]
    norm_num [candStep, flatPts', at', Tri.dsa, EPSILON_real, Vec.dist2, PyrusGeom.sq]
  unfold wrapping
  rw [hcl]
  simp only [Obj.ofList, hmi]
  rw [if_neg (by simp [flatPts'])]
  simp only [Obj.vertices, wrapLoop, Int.toNat_zero, n0, n1, n2, show flatPts'.length = 4 from rfl, List.nil_append,
    List.cons_append]
  simp [at', flatPts']

/-- **C177 is false** if doubled areas are less than `EPSILON`: the same four points in another order have another number of vertices. -/
theorem C177_refuted : flatPts'.Perm flatPts ∧ (flatPts.map Vec.pt).Nodup ∧
    (wrapping (Obj.ofList flatPts)).vertices.length = 2 ∧ (wrapping (Obj.ofList flatPts')).vertices.length = 3 := by
  refine ⟨?_, ?_, by rw [flatPts_wrap]; rfl, by rw [flatPts'_wrap]; rfl⟩
  · unfold flatPts flatPts'
    exact ((List.Perm.swap _ _ _).cons _).cons _
  · norm_num [flatPts, Vec.pt]

/-- **C177 is false** if doubled areas are less than `EPSILON`: the hull of the three vertices of the hull has two vertices. -/
theorem C177_idempotent_refuted :
    (wrapping (Obj.ofList (wrapping (Obj.ofList flatPts')).vertices)).vertices = [⟨0, 0, true⟩, ⟨1, 1 / 200000000, true⟩] := by
  rw [flatPts'_wrap]
  set tri : List (Vec ℝ) := [⟨0, 0, true⟩, ⟨100, 1 / 2000000000, true⟩, ⟨1, 1 / 200000000, true⟩] with htri
  have hmi : minPointIndex tri = 0 := by
    norm_num [htri, minPointIndex, List.range, List.range.loop, minStep, at']
  have hcl : (Obj.ofList tri).clearResults = Obj.ofList tri := clearResults_input (h := Obj.ofList tri) rfl
  have n0 : nextIndex tri 0 [] = 2 := by
    unfold nextIndex
    rw [show tri.length = 3 from rfl, show firstCandidate 3 0 [] = 1 from rfl]
    simp only [show List.range' (1 + 1) (3 - (1 + 1)) = [2] from rfl, List.foldl_cons, List.foldl_nil]
    norm_num [candStep, htri, at', Tri.dsa, EPSILON_real, Vec.dist2, PyrusGeom.sq]
  have n1 : nextIndex tri 2 [2] = 0 := by
    unfold nextIndex
    rw [show tri.length = 3 from rfl, show firstCandidate 3 2 [2] = 0 from rfl]
    simp only [show List.range' (0 + 1) (3 - (0 + 1)) = [1, 2] from rfl, List.foldl_cons, List.foldl_nil]
    norm_num [candStep, htri, at', Tri.dsa, EPSILON_real, Vec.dist2, PyrusGeom.sq]
  unfold wrapping
  rw [hcl]
  simp only [Obj.ofList, hmi]
  rw [if_neg (by simp [htri])]
  simp only [Obj.vertices, wrapLoop, Int.toNat_zero, n0, n1, show tri.length = 3 from rfl, List.nil_append,
    List.cons_append]
  simp [at', htri]

/-- **C177 is false** if three points are on a line bounding the hull: leaving out the middle point changes
the result though it does not change the convex hull. -/
theorem C177_collinear_refuted :
    convexHull ℝ {z | z ∈ ([⟨0, 0, true⟩, ⟨2, 0, true⟩, ⟨1, 1, true⟩] : List (Vec ℝ)).map Vec.pt} =
      convexHull ℝ {z | z ∈ edgePts.map Vec.pt} ∧
    ((2, 0) : Pt) ∈ (wrapping (Obj.ofList [⟨0, 0, true⟩, ⟨2, 0, true⟩, ⟨1, 1, true⟩])).vertices.map Vec.pt ∧
    ((2, 0) : Pt) ∉ (wrapping (Obj.ofList edgePts)).vertices.map Vec.pt := by
  refine ⟨?_, ?_, ?_⟩
  · refine Set.Subset.antisymm (convexHull_mono ?_) (convexHull_min ?_ (convex_convexHull ℝ _))
    · intro z hz
      simp only [List.map_cons, List.map_nil, List.mem_cons, List.not_mem_nil, or_false, Set.mem_ofPred_eq] at hz
      rcases hz with rfl | rfl | rfl <;> simp [edgePts]
    · intro z hz
      simp only [edgePts, List.map_cons, List.map_nil, List.mem_cons, List.not_mem_nil, or_false, Set.mem_ofPred_eq, Vec.pt] at hz
      rcases hz with rfl | rfl | rfl | rfl
      · exact subset_convexHull ℝ _ (by simp [Vec.pt])
      · refine convexHull_mono (s := {(0, 0), (2, 0)}) ?_ ?_
        · rintro z (rfl | rfl) <;> simp [Vec.pt]
        · rw [convexHull_pair]
          exact ⟨1 / 2, 1 / 2, by norm_num, by norm_num, by norm_num, by norm_num⟩
      · exact subset_convexHull ℝ _ (by simp [Vec.pt])
      · exact subset_convexHull ℝ _ (by simp [Vec.pt])
  · set tri : List (Vec ℝ) := [⟨0, 0, true⟩, ⟨2, 0, true⟩, ⟨1, 1, true⟩] with htri
    have hS : StrictConvex (tri.map Vec.pt) := strictConvex_triangle (by norm_num [area2, Vec.pt])
    have hg : HullPos (tri.map Vec.pt) EPSILON := by
      refine Spec.GenPos.hullPos EPSILON_pos (by simp [htri]) ?_
      intro i j k hi hj hk hij hik hjk
      rw [EPSILON_real]
      simp only [htri, List.map_cons, List.map_nil, List.length_cons, List.length_nil] at hi hj hk ⊢
      interval_cases i <;> interval_cases j <;> interval_cases k <;> first
        | (exfalso; omega)
        | (norm_num [area2, Vec.pt, abs_of_nonneg, abs_of_neg])
    obtain ⟨H, he⟩ := C78_convex_hull tri (by simp [htri]) hg
    exact (H.mem_iff hS he _).mpr (by simp [htri, Vec.pt])
  · rw [C117_collinear_refuted.1]
    simp [Vec.pt]

/-- Non-vacuity of C177: the square without its center, in another order. -/
example : (wrapping (Obj.ofList [⟨4, 4, true⟩, ⟨0, 0, true⟩, ⟨2, 2, true⟩, ⟨4, 0, true⟩, ⟨0, 4, true⟩])).vertices =
    (wrapping (Obj.ofList crossPts)).vertices := by
  refine (C177_order_partial crossPts _ (by simp [crossPts]) crossPts_ok.1 ?_).1
  unfold crossPts
  refine List.Perm.symm ((List.Perm.trans (List.Perm.cons _ ?_) (List.Perm.swap _ _ _)))
  refine List.Perm.trans (List.Perm.cons _ (List.Perm.swap _ _ _)) ?_
  exact List.Perm.swap _ _ _

end PyrusGeom
