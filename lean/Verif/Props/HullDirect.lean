import Verif.Props.Graham

/-! # Properties C114, C116: the direct method -/

namespace PyrusGeom
open Spec

/-- All other points of the list are strictly on the left of the line from `a` to `b`. -/
def Spec.Supporting (L : List Pt) (a b : Pt) : Prop :=
  a ∈ L ∧ b ∈ L ∧ a ≠ b ∧ ∀ t ∈ L, t ≠ a → t ≠ b → 0 < area2 a b t

namespace Hull

theorem genPos_P {pts : List (Vec ℝ)} (hg : GenPos (pts.map Vec.pt) EPSILON) {i j k : ℕ} (hi : i < pts.length)
    (hj : j < pts.length) (hk : k < pts.length) (hij : i ≠ j) (hik : i ≠ k) (hjk : j ≠ k) :
    (EPSILON : ℝ) ≤ |area2 (P pts i) (P pts j) (P pts k)| := by
  have := hg i j k (by simpa using hi) (by simpa using hj) (by simpa using hk) hij hik hjk
  simpa [P, at'_pt, hi, hj, hk] using this

theorem area2_ne {pts : List (Vec ℝ)} (hg : GenPos (pts.map Vec.pt) EPSILON) {i j k : ℕ} (hi : i < pts.length)
    (hj : j < pts.length) (hk : k < pts.length) (hij : i ≠ j) (hik : i ≠ k) (hjk : j ≠ k) :
    area2 (P pts i) (P pts j) (P pts k) ≠ 0 := by
  intro h
  have := genPos_P hg hi hj hk hij hik hjk
  rw [h, abs_zero] at this
  exact absurd EPSILON_pos (not_lt.mpr this)

theorem convex_pos_insert (a b : Pt) : Convex ℝ ({z : Pt | 0 < area2 a b z} ∪ {b}) := by
  have hb : area2 a b b = 0 := by unfold area2; ring
  intro x hx y hy s t hs ht hst
  have key := area2_affine a b x y s t hst
  rcases hx with hx | hx <;> rcases hy with hy | hy
  · left
    have hx' : 0 < area2 a b x := hx
    have hy' : 0 < area2 a b y := hy
    change 0 < area2 a b _
    rw [key]
    rcases lt_or_eq_of_le hs with h | h
    · nlinarith [mul_pos h hx', mul_nonneg ht hy'.le]
    · have : t = 1 := by linarith
      rw [← h, this]; linarith
  · have hx' : 0 < area2 a b x := hx
    obtain rfl : y = b := hy
    rcases lt_or_eq_of_le hs with h | h
    · left
      change 0 < area2 a y _
      rw [key, hb]; nlinarith [mul_pos h hx']
    · right
      have : t = 1 := by linarith
      simp [← h, this]
  · have hy' : 0 < area2 a b y := hy
    obtain rfl : x = b := hx
    rcases lt_or_eq_of_le ht with h | h
    · left
      change 0 < area2 a x _
      rw [key, hb]; nlinarith [mul_pos h hy']
    · right
      have : s = 1 := by linarith
      simp [← h, this]
  · right
    obtain rfl : x = b := hx
    obtain rfl : y = x := hy
    rw [← add_smul, hst, one_smul]; rfl

/-- The edges of a strictly convex polygon with the hull of `L` are exactly the supporting pairs of `L`. -/
theorem edge_iff {L l : List Pt} (H : StrictConvex l) (hsub : ∀ z ∈ l, z ∈ L)
    (hull : convexHull ℝ {z | z ∈ l} = convexHull ℝ {z | z ∈ L})
    (hgp : ∀ a ∈ L, ∀ b ∈ L, ∀ c ∈ L, a ≠ b → a ≠ c → b ≠ c → area2 a b c ≠ 0) {e : Pt × Pt} :
    e ∈ cyclicPairs l ↔ Supporting L e.1 e.2 := by
  have fwd : ∀ e ∈ cyclicPairs l, Supporting L e.1 e.2 := by
    intro e he
    have ha := hsub _ (fst_mem_of_cyclicPairs he)
    have hb := hsub _ (snd_mem_of_cyclicPairs he)
    refine ⟨ha, hb, H.ne he, ?_⟩
    intro t ht h1 h2
    have h0 : 0 ≤ area2 e.1 e.2 t := by
      refine H.hull he ?_
      rw [hull]
      exact subset_convexHull ℝ _ ht
    exact lt_of_le_of_ne h0 (Ne.symm (hgp _ ha _ hb _ ht (H.ne he) (Ne.symm h1) (Ne.symm h2)))
  constructor
  · exact fwd e
  · rintro ⟨ha, hb, hne, hall⟩
    have hal : e.1 ∈ l := by
      by_contra hal
      have hs : convexHull ℝ {z | z ∈ l} ⊆ {z : Pt | 0 < area2 e.1 e.2 z} ∪ {e.2} := by
        refine convexHull_min ?_ (convex_pos_insert _ _)
        intro z hz
        by_cases hzb : z = e.2
        · right; exact hzb
        · left
          exact hall z (hsub z hz) (fun h => hal (h ▸ hz)) hzb
      have hm : e.1 ∈ convexHull ℝ {z | z ∈ l} := by
        rw [hull]; exact subset_convexHull ℝ _ ha
      rcases hs hm with h | h
      · have h' : 0 < area2 e.1 e.2 e.1 := h
        have e0 : area2 e.1 e.2 e.1 = 0 := by unfold area2; ring
        rw [e0] at h'
        exact lt_irrefl _ h'
      · exact hne h
    rw [← map_fst_cyclicPairs l] at hal
    obtain ⟨f, hf, hfe⟩ := List.mem_map.mp hal
    obtain ⟨g1, g2, g3, g4⟩ := fwd f hf
    by_cases h : f.2 = e.2
    · have : f = e := Prod.ext hfe h
      rwa [← this]
    · exfalso
      have p1 := hall f.2 g2 (fun h' => g3 (hfe.trans h'.symm)) h
      have p2 := g4 e.2 hb (fun h' => hne (hfe.symm.trans h'.symm)) (Ne.symm h)
      rw [hfe, area2_flip] at p2
      linarith

/-- The hull polygon is unique as a set of vertices and edges. -/
theorem polygon_perm {L l l' : List Pt} (H : StrictConvex l) (H' : StrictConvex l') (hsub : ∀ z ∈ l, z ∈ L)
    (hsub' : ∀ z ∈ l', z ∈ L) (hull : convexHull ℝ {z | z ∈ l} = convexHull ℝ {z | z ∈ L})
    (hull' : convexHull ℝ {z | z ∈ l'} = convexHull ℝ {z | z ∈ L})
    (hgp : ∀ a ∈ L, ∀ b ∈ L, ∀ c ∈ L, a ≠ b → a ≠ c → b ≠ c → area2 a b c ≠ 0) :
    (cyclicPairs l).Perm (cyclicPairs l') ∧ l.Perm l' := by
  have h : (cyclicPairs l).Perm (cyclicPairs l') := by
    rw [List.perm_ext_iff_of_nodup H.nodup_pairs H'.nodup_pairs]
    intro e
    rw [edge_iff H hsub hull hgp, edge_iff H' hsub' hull' hgp]
  refine ⟨h, ?_⟩
  have := h.map Prod.fst
  rwa [map_fst_cyclicPairs, map_fst_cyclicPairs] at this

theorem genPos_ne {pts : List (Vec ℝ)} (hg : GenPos (pts.map Vec.pt) EPSILON) : ∀ a ∈ pts.map Vec.pt, ∀ b ∈ pts.map Vec.pt,
    ∀ c ∈ pts.map Vec.pt, a ≠ b → a ≠ c → b ≠ c → area2 a b c ≠ 0 := by
  intro a ha b hb c hc hab hac hbc h
  obtain ⟨a, ha', rfl⟩ := List.mem_map.mp ha
  obtain ⟨b, hb', rfl⟩ := List.mem_map.mp hb
  obtain ⟨c, hc', rfl⟩ := List.mem_map.mp hc
  have := genPosV_of hg a ha' b hb' c hc' (fun h => hab (h ▸ rfl)) (fun h => hac (h ▸ rfl)) (fun h => hbc (h ▸ rfl))
  rw [h, abs_zero] at this
  exact absurd EPSILON_pos (not_lt.mpr this)

/-! ## The loop over the third point -/

section
variable {pts : List (Vec ℝ)} (hg : GenPos (pts.map Vec.pt) EPSILON) {i j : ℕ} (hi : i < pts.length) (hj : j < pts.length)
  (hij : i ≠ j)
include hg hi hj hij

theorem directK_cons {k : ℕ} (hk : k < pts.length) (ks : List ℕ) (last : ℝ) :
    directK pts i j ((at' pts j).sub (at' pts i)) (at' pts i) (k :: ks) last =
      if k = i ∨ k = j then directK pts i j ((at' pts j).sub (at' pts i)) (at' pts i) ks last
      else if area2 (P pts i) (P pts j) (P pts k) * last < 0 then none
      else directK pts i j ((at' pts j).sub (at' pts i)) (at' pts i) ks (area2 (P pts i) (P pts j) (P pts k)) := by
  have hop : ((at' pts j).sub (at' pts i)).outerProduct ((at' pts k).sub (at' pts i)) =
      area2 (P pts i) (P pts j) (P pts k) := by
    simp only [Vec.outerProduct, Vec.sub_x, Vec.sub_y, P, area2, Vec.pt]
  rw [directK]
  by_cases h : k = i ∨ k = j
  · rw [if_pos h, if_pos (by simpa using h)]
  · rw [if_neg h, if_neg (by simpa using h)]
    push Not at h
    have hgk := genPos_P hg hi hj hk hij (Ne.symm h.1) (Ne.symm h.2)
    simp only [hop, fabs_real, num_real, Nat.cast_zero]
    rw [if_neg (by rintro ⟨h1, -⟩; exact absurd h1 (not_lt.mpr hgk))]

/-- If the loop ends, all other points are on the same side, given by the sign of the returned value. -/
theorem directK_some (ks : List ℕ) (hks : ∀ k ∈ ks, k < pts.length) : ∀ (last v : ℝ),
    directK pts i j ((at' pts j).sub (at' pts i)) (at' pts i) ks last = some v →
    ∃ σ : ℝ, (σ = 1 ∨ σ = -1) ∧ 0 ≤ σ * last ∧ 0 ≤ σ * v ∧
      (∀ k ∈ ks, k ≠ i → k ≠ j → 0 < σ * area2 (P pts i) (P pts j) (P pts k)) ∧
      ((last ≠ 0 ∨ ∃ k ∈ ks, k ≠ i ∧ k ≠ j) → 0 < σ * v) := by
  induction ks with
  | nil =>
    intro last v h
    obtain rfl : last = v := by simpa [directK] using h
    rcases le_or_gt 0 last with h | h
    · refine ⟨1, Or.inl rfl, by linarith, by linarith, by simp, ?_⟩
      rintro (h' | ⟨k, hk, -⟩)
      · rw [one_mul]; exact lt_of_le_of_ne h (Ne.symm h')
      · simp at hk
    · exact ⟨-1, Or.inr rfl, by linarith, by linarith, by simp, fun _ => by linarith⟩
  | cons k ks ih =>
    intro last v h
    have hk : k < pts.length := hks k (by simp)
    have hks' : ∀ k ∈ ks, k < pts.length := fun k hk => hks k (List.mem_cons_of_mem _ hk)
    rw [directK_cons hg hi hj hij hk] at h
    by_cases hc : k = i ∨ k = j
    · rw [if_pos hc] at h
      obtain ⟨σ, h1, h2, h3, h4, h5⟩ := ih hks' last v h
      refine ⟨σ, h1, h2, h3, ?_, ?_⟩
      · intro t ht hti htj
        rcases List.mem_cons.mp ht with rfl | ht
        · rcases hc with hc | hc
          · exact absurd hc hti
          · exact absurd hc htj
        · exact h4 t ht hti htj
      · rintro (h' | ⟨t, ht, hti, htj⟩)
        · exact h5 (Or.inl h')
        · rcases List.mem_cons.mp ht with rfl | ht
          · rcases hc with hc | hc
            · exact absurd hc hti
            · exact absurd hc htj
          · exact h5 (Or.inr ⟨t, ht, hti, htj⟩)
    · rw [if_neg hc] at h
      push Not at hc
      split at h
      · cases h
      · rename_i hn
        push Not at hn
        have hne := area2_ne hg hi hj hk hij (Ne.symm hc.1) (Ne.symm hc.2)
        obtain ⟨σ, h1, h2, h3, h4, h5⟩ := ih hks' _ v h
        have hpos : 0 < σ * area2 (P pts i) (P pts j) (P pts k) := by
          refine lt_of_le_of_ne h2 (Ne.symm (mul_ne_zero ?_ hne))
          rcases h1 with h1 | h1 <;> rw [h1] <;> norm_num
        refine ⟨σ, h1, ?_, h3, ?_, fun _ => h5 (Or.inl hne)⟩
        · by_contra hc'
          push Not at hc'
          have hprod := mul_neg_of_pos_of_neg hpos hc'
          have h11 : σ * σ = 1 := by rcases h1 with h1 | h1 <;> rw [h1] <;> norm_num
          have : σ * area2 (P pts i) (P pts j) (P pts k) * (σ * last) =
              (σ * σ) * (area2 (P pts i) (P pts j) (P pts k) * last) := by ring
          rw [this, h11] at hprod
          linarith
        · intro t ht hti htj
          rcases List.mem_cons.mp ht with rfl | ht
          · exact hpos
          · exact h4 t ht hti htj

/-- If all other points are on one side, the loop ends. -/
theorem directK_of_side (ks : List ℕ) (hks : ∀ k ∈ ks, k < pts.length) (σ : ℝ) (hσ : σ * σ = 1) : ∀ (last : ℝ),
    0 ≤ σ * last → (∀ k ∈ ks, k ≠ i → k ≠ j → 0 < σ * area2 (P pts i) (P pts j) (P pts k)) →
    ∃ v, directK pts i j ((at' pts j).sub (at' pts i)) (at' pts i) ks last = some v := by
  induction ks with
  | nil => intro last _ _; exact ⟨last, rfl⟩
  | cons k ks ih =>
    intro last hl hall
    have hk : k < pts.length := hks k (by simp)
    have hks' : ∀ k ∈ ks, k < pts.length := fun k hk => hks k (List.mem_cons_of_mem _ hk)
    have hall' : ∀ k ∈ ks, k ≠ i → k ≠ j → 0 < σ * area2 (P pts i) (P pts j) (P pts k) :=
      fun t ht => hall t (List.mem_cons_of_mem _ ht)
    rw [directK_cons hg hi hj hij hk]
    by_cases hc : k = i ∨ k = j
    · rw [if_pos hc]; exact ih hks' last hl hall'
    · rw [if_neg hc]
      push Not at hc
      have hp := hall k (by simp) hc.1 hc.2
      rw [if_neg]
      · exact ih hks' _ hp.le hall'
      · have : area2 (P pts i) (P pts j) (P pts k) * last =
            σ * area2 (P pts i) (P pts j) (P pts k) * (σ * last) := by
          linear_combination (-(area2 (P pts i) (P pts j) (P pts k) * last)) * hσ
        rw [this, not_lt]
        exact mul_nonneg hp.le hl

/-- What one pair of indices contributes. -/
theorem directK_iff (h3 : 3 ≤ pts.length) :
    (∀ v, directK pts i j ((at' pts j).sub (at' pts i)) (at' pts i) (List.range pts.length) (num 0) = some v →
      (0 < v ∧ Sup pts i j) ∨ (v < 0 ∧ Sup pts j i)) ∧
    ((Sup pts i j ∨ Sup pts j i) →
      ∃ v, directK pts i j ((at' pts j).sub (at' pts i)) (at' pts i) (List.range pts.length) (num 0) = some v) := by
  have hr : ∀ k ∈ List.range pts.length, k < pts.length := fun k hk => List.mem_range.mp hk
  rw [num_real, Nat.cast_zero]
  constructor
  · intro v hv
    obtain ⟨σ, h1, -, -, h4, h5⟩ := directK_some hg hi hj hij _ hr 0 v hv
    obtain ⟨k, hk, hki, hkj⟩ : ∃ k < pts.length, k ≠ i ∧ k ≠ j := by
      by_cases h0 : (0 : ℕ) ≠ i ∧ (0 : ℕ) ≠ j
      · exact ⟨0, by omega, h0⟩
      · by_cases h1 : (1 : ℕ) ≠ i ∧ (1 : ℕ) ≠ j
        · exact ⟨1, by omega, h1⟩
        · exact ⟨2, by omega, by omega, by omega⟩
    have hv' := h5 (Or.inr ⟨k, List.mem_range.mpr hk, hki, hkj⟩)
    rcases h1 with rfl | rfl
    · left
      refine ⟨by linarith, hij, hi, hj, ?_⟩
      intro t ht hti htj
      have := h4 t (List.mem_range.mpr ht) hti htj
      unfold Before; linarith
    · right
      refine ⟨by linarith, Ne.symm hij, hj, hi, ?_⟩
      intro t ht htj hti
      have := h4 t (List.mem_range.mpr ht) hti htj
      unfold Before
      rw [area2_swap]; linarith
  · rintro (h | h)
    · refine directK_of_side hg hi hj hij _ hr 1 (by norm_num) 0 (by norm_num) ?_
      intro k hk hki hkj
      have := h.2.2.2 k (hr k hk) hki hkj
      unfold Before at this; linarith
    · refine directK_of_side hg hi hj hij _ hr (-1) (by norm_num) 0 (by norm_num) ?_
      intro k hk hki hkj
      have := h.2.2.2 k (hr k hk) hkj hki
      unfold Before at this
      rw [area2_swap] at this; linarith

end

/-! ## The loop over the pairs -/

theorem mem_directPairs {n i j : ℕ} : (i, j) ∈ directPairs n ↔ i < j ∧ j < n := by
  unfold directPairs
  simp only [List.mem_flatMap, List.mem_range, List.mem_map, List.mem_range'_1, Prod.mk.injEq]
  constructor
  · rintro ⟨a, ha, b, hb, rfl, rfl⟩; omega
  · rintro ⟨h1, h2⟩
    exact ⟨i, by omega, j, by omega, rfl, rfl⟩

theorem nodup_directPairs (n : ℕ) : (directPairs n).Nodup := by
  unfold directPairs
  rw [List.nodup_flatMap]
  refine ⟨?_, ?_⟩
  · intro i _
    exact (List.nodup_range').map (fun a b h => by simpa using h)
  · refine List.nodup_range.imp ?_
    intro a b hab
    simp only [Function.onFun]
    intro e he1 he2
    obtain ⟨x, _, rfl⟩ := List.mem_map.mp he1
    obtain ⟨y, _, h⟩ := List.mem_map.mp he2
    exact hab (congrArg Prod.fst h).symm

open Classical in
/-- The directed hull edge, counter-clockwise, given by an index pair. -/
noncomputable def orient (pts : List (Vec ℝ)) (e : ℕ × ℕ) : Option (ℕ × ℕ) :=
  if Sup pts e.1 e.2 then some (e.1, e.2) else if Sup pts e.2 e.1 then some (e.2, e.1) else none

/-- The index pairs of the hull edges in the order found. -/
noncomputable def hullPairs (pts : List (Vec ℝ)) : List (ℕ × ℕ) := (directPairs pts.length).filterMap (orient pts)

theorem sup_asymm {pts : List (Vec ℝ)} (h3 : 3 ≤ pts.length) {a b : ℕ} (h : Sup pts a b) : ¬ Sup pts b a := by
  intro h'
  obtain ⟨k, hk, hki, hkj⟩ : ∃ k < pts.length, k ≠ a ∧ k ≠ b := by
    by_cases h0 : (0 : ℕ) ≠ a ∧ (0 : ℕ) ≠ b
    · exact ⟨0, by omega, h0⟩
    · by_cases h1 : (1 : ℕ) ≠ a ∧ (1 : ℕ) ≠ b
      · exact ⟨1, by omega, h1⟩
      · exact ⟨2, by omega, by omega, by omega⟩
  have p1 := h.2.2.2 k hk hki hkj
  have p2 := h'.2.2.2 k hk hkj hki
  unfold Before at p1 p2
  rw [area2_swap] at p2
  linarith

theorem mem_hullPairs {pts : List (Vec ℝ)} (h3 : 3 ≤ pts.length) {a b : ℕ} : (a, b) ∈ hullPairs pts ↔ Sup pts a b := by
  classical
  unfold hullPairs
  rw [List.mem_filterMap]
  constructor
  · rintro ⟨⟨i, j⟩, hij, h⟩
    unfold orient at h
    simp only at h
    split at h
    · cases h; assumption
    · split at h
      · cases h; assumption
      · cases h
  · intro h
    rcases lt_or_gt_of_ne h.1 with hab | hab
    · refine ⟨(a, b), mem_directPairs.mpr ⟨hab, h.2.2.1⟩, ?_⟩
      simp [orient, h]
    · refine ⟨(b, a), mem_directPairs.mpr ⟨hab, h.2.1⟩, ?_⟩
      simp [orient, h, sup_asymm h3 h]

theorem nodup_hullPairs (pts : List (Vec ℝ)) : (hullPairs pts).Nodup := by
  classical
  unfold hullPairs List.Nodup
  rw [List.pairwise_filterMap]
  refine (nodup_directPairs pts.length).imp_of_mem ?_
  rintro ⟨i, j⟩ ⟨k, l⟩ h1 h2 hne b hb b' hb' rfl
  have h1 := (mem_directPairs.mp h1).1
  have h2 := (mem_directPairs.mp h2).1
  apply hne
  have c1 : b = (i, j) ∨ b = (j, i) := by
    unfold orient at hb
    simp only at hb
    split at hb
    · left; cases hb; rfl
    · split at hb
      · right; cases hb; rfl
      · cases hb
  have c2 : b = (k, l) ∨ b = (l, k) := by
    unfold orient at hb'
    simp only at hb'
    split at hb'
    · left; cases hb'; rfl
    · split at hb'
      · right; cases hb'; rfl
      · cases hb'
  rcases c1 with rfl | rfl <;> rcases c2 with c2 | c2 <;> simp only [Prod.mk.injEq] at c2 ⊢ <;> omega

/-- The pair loop. -/
theorem foldl_directStep {pts : List (Vec ℝ)} (hg : GenPos (pts.map Vec.pt) EPSILON) (h3 : 3 ≤ pts.length)
    (ps : List (ℕ × ℕ)) (hps : ∀ e ∈ ps, e.1 < e.2 ∧ e.2 < pts.length) : ∀ s : List (Vec ℝ) × List (Seg ℝ),
    (ps.foldl (directStep pts) s).2 =
      s.2 ++ (ps.filterMap (orient pts)).map (fun e => Seg.ofPoints (at' pts e.2) (at' pts e.1)) ∧
    ∀ v, v ∈ (ps.foldl (directStep pts) s).1 ↔
      v ∈ s.1 ∨ ∃ e ∈ ps.filterMap (orient pts), v = at' pts e.1 ∨ v = at' pts e.2 := by
  classical
  induction ps with
  | nil => intro s; simp
  | cons e ps ih =>
    intro s
    have he := hps e (by simp)
    have hij : e.1 ≠ e.2 := by omega
    have hk := directK_iff hg (by omega : e.1 < pts.length) he.2 hij h3
    have ih' := ih (fun e he => hps e (List.mem_cons_of_mem _ he)) (directStep pts s e)
    rw [List.foldl_cons]
    cases hd : directK pts e.1 e.2 ((at' pts e.2).sub (at' pts e.1)) (at' pts e.1) (List.range pts.length) (num 0) with
    | none =>
      have hst : directStep pts s e = s := by unfold directStep; simp only [hd]
      have hor : orient pts e = none := by
        have : ¬ (Sup pts e.1 e.2 ∨ Sup pts e.2 e.1) := by
          intro h
          obtain ⟨v, hv⟩ := hk.2 h
          rw [hd] at hv; cases hv
        push Not at this
        simp [orient, this.1, this.2]
      rw [hst] at ih' ⊢
      rw [List.filterMap_cons_none hor]
      exact ih'
    | some v =>
      rcases hk.1 v hd with ⟨hv, hS⟩ | ⟨hv, hS⟩
      · have hst : directStep pts s e =
            (s.1 ++ [at' pts e.1, at' pts e.2], s.2 ++ [Seg.ofPoints (at' pts e.2) (at' pts e.1)]) := by
          unfold directStep
          simp only [hd]
          rw [if_neg (by simp only [num_real, Nat.cast_zero, not_lt]; exact hv.le)]
        have hor : orient pts e = some (e.1, e.2) := by simp [orient, hS]
        rw [hst] at ih' ⊢
        rw [List.filterMap_cons_some hor]
        refine ⟨?_, ?_⟩
        · rw [ih'.1]; simp
        · intro w
          rw [ih'.2 w, List.mem_append]
          constructor
          · rintro ((h | h) | ⟨f, hf, h⟩)
            · exact Or.inl h
            · refine Or.inr ⟨_, List.mem_cons_self, ?_⟩
              simpa [or_comm] using h
            · exact Or.inr ⟨f, List.mem_cons_of_mem _ hf, h⟩
          · rintro (h | ⟨f, hf, h⟩)
            · exact Or.inl (Or.inl h)
            · rcases List.mem_cons.mp hf with rfl | hf
              · exact Or.inl (Or.inr (by simpa [or_comm] using h))
              · exact Or.inr ⟨f, hf, h⟩
      · have hst : directStep pts s e =
            (s.1 ++ [at' pts e.1, at' pts e.2], s.2 ++ [Seg.ofPoints (at' pts e.1) (at' pts e.2)]) := by
          unfold directStep
          simp only [hd]
          rw [if_pos (by simp only [num_real, Nat.cast_zero]; exact hv)]
        have hor : orient pts e = some (e.2, e.1) := by simp [orient, hS, sup_asymm h3 hS]
        rw [hst] at ih' ⊢
        rw [List.filterMap_cons_some hor]
        refine ⟨?_, ?_⟩
        · rw [ih'.1]; simp
        · intro w
          rw [ih'.2 w, List.mem_append]
          constructor
          · rintro ((h | h) | ⟨f, hf, h⟩)
            · exact Or.inl h
            · refine Or.inr ⟨_, List.mem_cons_self, ?_⟩
              simpa [or_comm] using h
            · exact Or.inr ⟨f, List.mem_cons_of_mem _ hf, h⟩
          · rintro (h | ⟨f, hf, h⟩)
            · exact Or.inl (Or.inl h)
            · rcases List.mem_cons.mp hf with rfl | hf
              · exact Or.inl (Or.inr (by simpa [or_comm] using h))
              · exact Or.inr ⟨f, hf, h⟩

/-- The index pairs are the edges of the hull polygon. -/
theorem hullPairs_perm {pts : List (Vec ℝ)} (hg : GenPos (pts.map Vec.pt) EPSILON) (h3 : 3 ≤ pts.length) :
    ((hullPairs pts).map (fun e => (at' pts e.1, at' pts e.2))).Perm
      (cyclicPairs (wrapping (Obj.ofList pts)).vertices) := by
  obtain ⟨H, hull⟩ := C78_convex_hull pts h3 (hg.hull h3)
  obtain ⟨hsub, -, -, -⟩ := C78_wrapping pts h3 (hg.hull h3) (fun _ l => l) _ rfl
  have hndp := genPos_nodup hg h3
  have hinj : ∀ a ∈ pts, ∀ b ∈ pts, a.pt = b.pt → a = b := fun a ha b hb h => List.inj_on_of_nodup_map hndp ha hb h
  have hat : ∀ i, i < pts.length → at' pts i ∈ pts := fun i hi => by rw [at'_pt pts hi]; exact List.getElem_mem hi
  have hnd1 : ((hullPairs pts).map (fun e => (at' pts e.1, at' pts e.2))).Nodup := by
    refine List.Nodup.map_on ?_ (nodup_hullPairs pts)
    rintro ⟨a, b⟩ h1 ⟨c, d⟩ h2 h
    have s1 := (mem_hullPairs h3).mp h1
    have s2 := (mem_hullPairs h3).mp h2
    simp only [Prod.mk.injEq] at h ⊢
    exact ⟨P_inj (hg.hull h3) s1.2.1 s2.2.1 (congrArg Vec.pt h.1), P_inj (hg.hull h3) s1.2.2.1 s2.2.2.1 (congrArg Vec.pt h.2)⟩
  have hnd2 : (cyclicPairs (wrapping (Obj.ofList pts)).vertices).Nodup := by
    have := H.nodup_pairs
    rw [cyclicPairs_map] at this
    exact this.of_map _
  rw [List.perm_ext_iff_of_nodup hnd1 hnd2]
  rintro ⟨x, y⟩
  have hedge : ∀ x ∈ pts, ∀ y ∈ pts, ((x, y) ∈ cyclicPairs (wrapping (Obj.ofList pts)).vertices ↔
      Supporting (pts.map Vec.pt) x.pt y.pt) := by
    intro x hx y hy
    rw [← edge_iff (e := (x.pt, y.pt)) H ?_ hull (genPos_ne hg), cyclicPairs_map, List.mem_map]
    · constructor
      · intro h; exact ⟨_, h, rfl⟩
      · rintro ⟨⟨x', y'⟩, h, he⟩
        simp only [Prod.map_apply, Prod.mk.injEq] at he
        have hx' := hinj x' (hsub _ (fst_mem_of_cyclicPairs h)) x hx he.1
        have hy' := hinj y' (hsub _ (snd_mem_of_cyclicPairs h)) y hy he.2
        rwa [← hx', ← hy']
    · intro z hz
      obtain ⟨v, hv, rfl⟩ := List.mem_map.mp hz
      exact List.mem_map_of_mem (f := Vec.pt) (hsub v hv)
  have hsup : ∀ i < pts.length, ∀ j < pts.length, (Sup pts i j ↔ Supporting (pts.map Vec.pt) (P pts i) (P pts j)) := by
    intro i hi j hj
    constructor
    · intro h
      refine ⟨List.mem_map_of_mem (f := Vec.pt) (hat i hi), List.mem_map_of_mem (f := Vec.pt) (hat j hj),
        fun h' => h.1 (P_inj (hg.hull h3) hi hj h'), ?_⟩
      intro t ht h1 h2
      obtain ⟨v, hv, rfl⟩ := List.mem_map.mp ht
      obtain ⟨k, hk, rfl⟩ := List.mem_iff_getElem.mp hv
      have e : (pts[k]).pt = P pts k := by unfold P; rw [at'_pt pts hk]
      rw [e] at h1 h2 ⊢
      exact h.2.2.2 k hk (fun h' => h1 (h' ▸ rfl)) (fun h' => h2 (h' ▸ rfl))
    · rintro ⟨-, -, hne, hall⟩
      refine ⟨fun h => hne (h ▸ rfl), hi, hj, ?_⟩
      intro t ht h1 h2
      exact hall _ (List.mem_map_of_mem (f := Vec.pt) (hat t ht)) (fun h => h1 (P_inj (hg.hull h3) ht hi h))
        (fun h => h2 (P_inj (hg.hull h3) ht hj h))
  constructor
  · intro h
    obtain ⟨⟨a, b⟩, hab, he⟩ := List.mem_map.mp h
    simp only [Prod.mk.injEq] at he
    have s1 := (mem_hullPairs h3).mp hab
    rw [← he.1, ← he.2, hedge _ (hat a s1.2.1) _ (hat b s1.2.2.1)]
    exact (hsup a s1.2.1 b s1.2.2.1).mp s1
  · intro h
    have hx := hsub _ (fst_mem_of_cyclicPairs h)
    have hy := hsub _ (snd_mem_of_cyclicPairs h)
    simp only at hx hy
    rw [hedge x hx y hy] at h
    obtain ⟨a, ha, rfl⟩ := List.mem_iff_getElem.mp hx
    obtain ⟨b, hb, rfl⟩ := List.mem_iff_getElem.mp hy
    rw [List.mem_map]
    refine ⟨(a, b), (mem_hullPairs h3).mpr ((hsup a ha b hb).mpr ?_), ?_⟩
    · unfold P; rwa [at'_pt pts ha, at'_pt pts hb]
    · simp only [at'_pt pts ha, at'_pt pts hb]

/-! ## C114 -/

/-- **C114**, edges: for every input in general position the direct method returns every edge of the convex hull exactly once,
directed clockwise, that is, with all other points on its right. -/
theorem C114_edges (pts : List (Vec ℝ)) (h3 : 3 ≤ pts.length) (hg : GenPos (pts.map Vec.pt) EPSILON) (srt) (h' : Obj ℝ)
    (hc : compute srt (Obj.ofList pts) .direct = .ok h') :
    h'.getEdges.Perm ((cyclicPairs (wrapping (Obj.ofList pts)).vertices).map (fun e => Seg.ofPoints e.2 e.1)) ∧
    (∀ s ∈ h'.getEdges, ∀ p ∈ pts, area2 s.origin.pt s.terminal.pt p.pt ≤ 0) ∧
    {p | ∃ s ∈ h'.getEdges, p ∈ s.pts} = outline ((wrapping (Obj.ofList pts)).vertices.map Vec.pt) := by
  obtain rfl : direct srt (Obj.ofList pts) = h' := by simpa [compute] using hc
  have hclr : (Obj.ofList pts).clearResults = Obj.ofList pts := clearResults_input (h := Obj.ofList pts) rfl
  have hE : (direct srt (Obj.ofList pts)).getEdges = (hullPairs pts).map (fun e => Seg.ofPoints (at' pts e.2) (at' pts e.1)) := by
    unfold direct
    rw [hclr, if_neg (show ¬ (Obj.ofList pts).input.length < 3 from not_lt.mpr h3)]
    have := (foldl_directStep hg h3 (directPairs pts.length) (fun e he => mem_directPairs.mp he) ([], [])).1
    simpa [Obj.getEdges, hullPairs, Obj.ofList] using this
  have hP : (direct srt (Obj.ofList pts)).getEdges.Perm
      ((cyclicPairs (wrapping (Obj.ofList pts)).vertices).map (fun e => Seg.ofPoints e.2 e.1)) := by
    rw [hE]
    have := (hullPairs_perm hg h3).map (fun e : Vec ℝ × Vec ℝ => Seg.ofPoints e.2 e.1)
    rwa [List.map_map] at this
  refine ⟨hP, ?_, ?_⟩
  · intro s hs p hp
    obtain ⟨e, he, rfl⟩ := List.mem_map.mp (hP.subset hs)
    have := (C78_wrapping pts h3 (hg.hull h3) srt _ rfl).2.2.2 e he p hp
    change area2 e.2.pt e.1.pt p.pt ≤ 0
    rw [area2_swap]; linarith
  · ext z
    simp only [outline, Set.mem_ofPred_eq]
    constructor
    · rintro ⟨s, hs, hz⟩
      obtain ⟨e, he, rfl⟩ := List.mem_map.mp (hP.subset hs)
      refine ⟨(e.1.pt, e.2.pt), ?_, ?_⟩
      · rw [cyclicPairs_map]; exact List.mem_map_of_mem (f := Prod.map Vec.pt Vec.pt) he
      · rw [segment_symm]; exact hz
    · rintro ⟨e, he, hz⟩
      rw [cyclicPairs_map] at he
      obtain ⟨f, hf, rfl⟩ := List.mem_map.mp he
      refine ⟨_, hP.symm.subset (List.mem_map_of_mem (f := fun e => Seg.ofPoints e.2 e.1) hf), ?_⟩
      rw [segment_symm] at hz; exact hz

theorem direct_verts (pts : List (Vec ℝ)) (h3 : 3 ≤ pts.length) (hg : GenPos (pts.map Vec.pt) EPSILON) (srt) :
    ∃ l : List (Vec ℝ), (∀ v, v ∈ l ↔ v ∈ (wrapping (Obj.ofList pts)).vertices) ∧
      (direct srt (Obj.ofList pts)).vertices = list2set Vec.eq (srt before l) := by
  have hclr : (Obj.ofList pts).clearResults = Obj.ofList pts := clearResults_input (h := Obj.ofList pts) rfl
  set s := (directPairs pts.length).foldl (directStep pts) ([], []) with hs
  have hmem : ∀ v, v ∈ s.1 ↔ v ∈ (wrapping (Obj.ofList pts)).vertices := by
    intro v
    have := (foldl_directStep hg h3 (directPairs pts.length) (fun e he => mem_directPairs.mp he) ([], [])).2 v
    rw [← hs] at this
    rw [this]
    simp only [List.not_mem_nil, false_or]
    change (∃ e ∈ hullPairs pts, _) ↔ _
    have hp := hullPairs_perm hg h3
    constructor
    · rintro ⟨e, he, h⟩
      have hm := hp.subset (List.mem_map_of_mem (f := fun e => (at' pts e.1, at' pts e.2)) he)
      rcases h with rfl | rfl
      · exact fst_mem_of_cyclicPairs hm
      · exact snd_mem_of_cyclicPairs hm
    · intro hv
      rw [← map_fst_cyclicPairs (wrapping (Obj.ofList pts)).vertices] at hv
      obtain ⟨e, he, rfl⟩ := List.mem_map.mp hv
      obtain ⟨f, hf, rfl⟩ := List.mem_map.mp (hp.symm.subset he)
      exact ⟨f, hf, Or.inl rfl⟩
  refine ⟨s.1, hmem, ?_⟩
  have hlen : 0 < s.1.length := by
    obtain ⟨-, ⟨v, t, hvt, -⟩, -⟩ := C78_wrapping pts h3 (hg.hull h3) srt _ rfl
    have : v ∈ s.1 := (hmem v).mpr (by rw [hvt]; simp)
    exact List.length_pos_of_mem this
  unfold direct
  rw [hclr, if_neg (show ¬ (Obj.ofList pts).input.length < 3 from not_lt.mpr h3)]
  change (if s.1.length > 0 then list2set Vec.eq (srt before s.1) else s.1) = _
  rw [if_pos hlen]

/-- **C114**, vertices: for every input in general position the direct method returns every vertex of the convex hull exactly
once (in some order), whatever order the sort leaves them in. -/
theorem C114_vertices (pts : List (Vec ℝ)) (h3 : 3 ≤ pts.length) (hg : GenPos (pts.map Vec.pt) EPSILON) (srt)
    (hs : ∀ lt l, (srt lt l).Perm l) (h' : Obj ℝ) (hc : compute srt (Obj.ofList pts) .direct = .ok h') :
    h'.vertices.Perm (wrapping (Obj.ofList pts)).vertices := by
  obtain rfl : direct srt (Obj.ofList pts) = h' := by simpa [compute] using hc
  obtain ⟨l, hl, hv⟩ := direct_verts pts h3 hg srt
  obtain ⟨hsub, -, hnd, -⟩ := C78_wrapping pts h3 (hg.hull h3) srt _ rfl
  have hndp := genPos_nodup hg h3
  have hinj : ∀ a ∈ pts, ∀ b ∈ pts, a.pt = b.pt → a = b := fun a ha b hb h => List.inj_on_of_nodup_map hndp ha hb h
  have hperm := hs before l
  have hset : ∀ v, v ∈ srt before l ↔ v ∈ (wrapping (Obj.ofList pts)).vertices := fun v => by
    rw [hperm.mem_iff, hl]
  obtain ⟨g1, g2, g3⟩ := C82_same_elements (eq := Vec.eq) (fun a => (Vec.eq_real a a).mpr rfl)
    (fun a b h => (Vec.eq_real b a).mpr ((Vec.eq_real a b).mp h).symm) (srt before l)
  rw [hv]
  have hn1 : (list2set Vec.eq (srt before l)).Nodup := (C82_vectors _).2.of_map _
  rw [List.perm_ext_iff_of_nodup hn1 (hnd.of_map _)]
  intro v
  rw [← hset]
  constructor
  · exact fun h => g1.subset h
  · intro h
    obtain ⟨b, hb, hbv⟩ := g3 v h
    have e := (Vec.eq_real b v).mp hbv
    rwa [← hinj b (hsub _ ((hset b).mp (g1.subset hb))) v (hsub _ ((hset v).mp h)) e]

/-- **C116**, order (part): if the input contains the origin and no point above it, the direct method returns the vertices of
the Graham scan, in the same order: the hull clockwise, starting with the origin. -/
theorem C116_order_partial (pts : List (Vec ℝ)) (h3 : 3 ≤ pts.length) (hg : GenPos (pts.map Vec.pt) EPSILON) (srt)
    (hs : Spec.Sorts srt) (o : Vec ℝ) (ho : o ∈ pts) (h0 : o.pt = 0) (hy : ∀ p ∈ pts, p.y ≤ 0) :
    ∃ hd hgr, compute srt (Obj.ofList pts) .direct = .ok hd ∧ compute srt (Obj.ofList pts) .graham = .ok hgr ∧
      hd.vertices = hgr.vertices ∧ StrictConvex (hd.vertices.map Vec.pt).reverse := by
  obtain ⟨hgr, hok, hmem, ⟨r, hr, hrp⟩, hcv, hull, -⟩ := C113_graham_partial pts h3 hg srt hs o ho h0 hy
  have hndp := genPos_nodup hg h3
  have hgp := genPosV_of hg
  have hinj : ∀ a ∈ pts, ∀ b ∈ pts, a.pt = b.pt → a = b := fun a ha b hb h => List.inj_on_of_nodup_map hndp ha hb h
  obtain ⟨H, hullw⟩ := C78_convex_hull pts h3 (hg.hull h3)
  obtain ⟨hsub, -, hnd, -⟩ := C78_wrapping pts h3 (hg.hull h3) srt _ rfl
  -- the vertices of the Graham scan are the hull vertices
  have hVW : hgr.vertices.Perm (wrapping (Obj.ofList pts)).vertices := by
    have hset : ∀ l : List Pt, {z | z ∈ l.reverse} = {z | z ∈ l} := by intro l; ext z; simp
    have hp := (polygon_perm (L := pts.map Vec.pt) hcv H
      (fun z hz => by
        obtain ⟨v, hv, rfl⟩ := List.mem_map.mp (List.mem_reverse.mp hz)
        exact List.mem_map_of_mem (f := Vec.pt) (hmem v hv))
      (fun z hz => by
        obtain ⟨v, hv, rfl⟩ := List.mem_map.mp hz
        exact List.mem_map_of_mem (f := Vec.pt) (hsub v hv))
      (by rw [hset]; exact hull) hullw (genPos_ne hg)).2
    have hp' : (hgr.vertices.map Vec.pt).Perm ((wrapping (Obj.ofList pts)).vertices.map Vec.pt) :=
      (List.reverse_perm _).symm.trans hp
    have hn1 : hgr.vertices.Nodup := (hp'.nodup_iff.mpr hnd).of_map _
    rw [List.perm_ext_iff_of_nodup hn1 (hnd.of_map _)]
    intro v
    constructor
    · intro h
      obtain ⟨w, hw, e⟩ := List.mem_map.mp (hp'.subset (List.mem_map_of_mem (f := Vec.pt) h))
      rwa [← hinj w (hsub w hw) v (hmem v h) e]
    · intro h
      obtain ⟨w, hw, e⟩ := List.mem_map.mp (hp'.symm.subset (List.mem_map_of_mem (f := Vec.pt) h))
      rwa [← hinj w (hmem w hw) v (hsub v h) e]
  have hDW := C114_vertices pts h3 hg srt (fun lt l => (hs lt l).1) _ rfl
  have hDV : (direct srt (Obj.ofList pts)).vertices.Perm hgr.vertices := hDW.trans hVW.symm
  obtain ⟨l, hl, hv⟩ := direct_verts pts h3 hg srt
  obtain ⟨hperm, hpw⟩ := sort_spec hs (l := l) (fun v hv => hsub v ((hl v).mp hv)) hgp ho h0 hy hinj
  have hsubl : (list2set Vec.eq (srt before l)).Sublist (srt before l) :=
    (C82_same_elements (eq := Vec.eq) (fun a => (Vec.eq_real a a).mpr rfl)
      (fun a b h => (Vec.eq_real b a).mpr ((Vec.eq_real a b).mp h).symm) (srt before l)).1
  have hpwD : (direct srt (Obj.ofList pts)).vertices.Pairwise (fun a b => before b a = false) := by
    rw [hv]; exact hpw.sublist hsubl
  have hDn : (direct srt (Obj.ofList pts)).vertices.Nodup := hDW.nodup_iff.mpr (hnd.of_map _)
  obtain ⟨r', hr', hrp'⟩ := sorted_shape hgp ho h0 hy hinj (fun v hv => hmem v (hDV.subset hv))
    (hDV.symm.subset (by rw [hr]; simp)) hDn hpwD
  have heq : (direct srt (Obj.ofList pts)).vertices = hgr.vertices := by
    rw [hr', hr] at hDV ⊢
    have := hDV.cons_inv
    congr 1
    refine List.Perm.eq_of_pairwise (le := fun a b => area2 o.pt a.pt b.pt < 0) ?_ hrp' hrp this
    intro a b _ _ h1 h2
    have e : area2 o.pt b.pt a.pt = -area2 o.pt a.pt b.pt := by unfold area2; ring
    linarith
  exact ⟨_, hgr, rfl, hok, heq, by rw [heq]; exact hcv⟩

/-- Four corners of a convex quadrilateral that does not contain the origin. -/
noncomputable def asidePts : List (Vec ℝ) := [⟨6, 2, true⟩, ⟨9, 1, true⟩, ⟨3, 0, true⟩, ⟨6, -2, true⟩]

theorem asidePts_genPos : GenPos (asidePts.map Vec.pt) EPSILON := by
  intro i j k hi hj hk hij hik hjk
  rw [EPSILON_real]
  simp only [asidePts, List.map_cons, List.map_nil, List.length_cons, List.length_nil] at hi hj hk ⊢
  interval_cases i <;> interval_cases j <;> interval_cases k <;> first
    | (exfalso; omega)
    | (norm_num [area2, Vec.pt, abs_of_nonneg, abs_of_neg])

theorem asidePts_hull : ∀ v ∈ asidePts, v ∈ (wrapping (Obj.ofList asidePts)).vertices := by
  have h3 : 3 ≤ asidePts.length := by simp [asidePts]
  have hp := hullPairs_perm asidePts_genPos h3
  have key : ∀ i j, Sup asidePts i j → at' asidePts i ∈ (wrapping (Obj.ofList asidePts)).vertices := by
    intro i j h
    exact fst_mem_of_cyclicPairs (hp.subset (List.mem_map_of_mem (f := fun e : ℕ × ℕ => (at' asidePts e.1, at' asidePts e.2))
      ((mem_hullPairs h3).mpr h)))
  have s : ∀ i j, (i, j) ∈ [(3, 1), (1, 0), (0, 2), (2, 3)] → Sup asidePts i j := by
    intro i j h
    simp only [List.mem_cons, List.not_mem_nil, or_false, Prod.mk.injEq] at h
    have hl : asidePts.length = 4 := rfl
    rcases h with ⟨rfl, rfl⟩ | ⟨rfl, rfl⟩ | ⟨rfl, rfl⟩ | ⟨rfl, rfl⟩ <;>
    · refine ⟨by omega, by omega, by omega, ?_⟩
      intro t ht h1 h2
      rw [hl] at ht
      interval_cases t <;> first
        | omega
        | norm_num [Before, P, at', asidePts, area2, Vec.pt]
  intro v hv
  unfold asidePts at hv
  fin_cases hv
  · exact key 0 2 (s 0 2 (by simp))
  · exact key 1 0 (s 1 0 (by simp))
  · exact key 2 3 (s 2 3 (by simp))
  · exact key 3 1 (s 3 1 (by simp))

/-- **C116 is false**: they are sorted about the origin. For the quadrilateral with corners
(6,2), (9,1), (3,0), (6,-2) the list crosses itself. -/
theorem C116_order_refuted (srt) (hs : Spec.Sorts srt) : GenPos (asidePts.map Vec.pt) EPSILON ∧
    ∃ h', compute srt (Obj.ofList asidePts) .direct = .ok h' ∧
      h'.vertices = [⟨6, 2, true⟩, ⟨9, 1, true⟩, ⟨3, 0, true⟩, ⟨6, -2, true⟩] ∧
      ¬ StrictConvex (h'.vertices.map Vec.pt) ∧ ¬ StrictConvex (h'.vertices.map Vec.pt).reverse := by
  refine ⟨asidePts_genPos, _, rfl, ?_⟩
  have h3 : 3 ≤ asidePts.length := by simp [asidePts]
  have hperm := C114_vertices asidePts h3 asidePts_genPos srt (fun lt l => (hs lt l).1) _ rfl
  obtain ⟨hsub, -, hnd, -⟩ := C78_wrapping asidePts h3 (asidePts_genPos.hull h3) srt _ rfl
  obtain ⟨l, hl, hv⟩ := direct_verts asidePts h3 asidePts_genPos srt
  have hla : ∀ v ∈ l, v ∈ asidePts := fun v h => hsub v ((hl v).mp h)
  have hpw : (srt before l).Pairwise (fun a b => before b a = false) := by
    refine (hs before l).2 ?_ ?_ ?_
    · intro a ha
      have ha := hla a ha
      unfold asidePts at ha
      fin_cases ha <;> norm_num [before, angleSortPredicate, Tri.dsa, Vec.zero, EPSILON_real, Vec.dist2]
    · intro a ha b hb c hc
      have ha := hla a ha
      have hb := hla b hb
      have hc := hla c hc
      unfold asidePts at ha hb hc
      fin_cases ha <;> fin_cases hb <;> fin_cases hc <;>
        norm_num [before, angleSortPredicate, Tri.dsa, Vec.zero, EPSILON_real, Vec.dist2]
    · intro a ha b hb
      have ha := hla a ha
      have hb := hla b hb
      unfold asidePts at ha hb
      fin_cases ha <;> fin_cases hb <;>
        norm_num [before, angleSortPredicate, Tri.dsa, Vec.zero, EPSILON_real, Vec.dist2]
  have hsubl : (list2set Vec.eq (srt before l)).Sublist (srt before l) :=
    (C82_same_elements (eq := Vec.eq) (fun a => (Vec.eq_real a a).mpr rfl)
      (fun a b h => (Vec.eq_real b a).mpr ((Vec.eq_real a b).mp h).symm) (srt before l)).1
  have hpwD : (direct srt (Obj.ofList asidePts)).vertices.Pairwise (fun a b => before b a = false) := by
    rw [hv]; exact hpw.sublist hsubl
  have hnda : asidePts.Nodup := (genPos_nodup asidePts_genPos h3).of_map _
  have hpa : (direct srt (Obj.ofList asidePts)).vertices.Perm asidePts :=
    hperm.trans ((List.perm_ext_iff_of_nodup (hnd.of_map _) hnda).mpr fun v => ⟨hsub v, asidePts_hull v⟩)
  have heq : (direct srt (Obj.ofList asidePts)).vertices = asidePts := by
    refine List.Perm.eq_of_pairwise (le := fun a b => before b a = false) ?_ hpwD ?_ hpa
    · intro a b ha hb
      have ha := hpa.subset ha
      unfold asidePts at ha hb
      fin_cases ha <;> fin_cases hb <;>
        norm_num [before, angleSortPredicate, Tri.dsa, Vec.zero, EPSILON_real, Vec.dist2]
    · unfold asidePts
      simp only [List.pairwise_cons, List.mem_cons, List.not_mem_nil, or_false, forall_eq_or_imp, forall_eq]
      norm_num [before, angleSortPredicate, Tri.dsa, Vec.zero, EPSILON_real, Vec.dist2]
  rw [heq]
  refine ⟨rfl, ?_, ?_⟩
  · rintro ⟨-, -, h⟩
    have := h ((6, 2), (9, 1)) (by simp [asidePts, Vec.pt, cyclicPairs])
      (3, 0) (by simp [asidePts, Vec.pt]) (by norm_num) (by norm_num)
    norm_num [area2] at this
  · rintro ⟨-, -, h⟩
    have := h ((6, -2), (3, 0)) (by simp [asidePts, Vec.pt, cyclicPairs])
      (9, 1) (by simp [asidePts, Vec.pt]) (by norm_num) (by norm_num)
    norm_num [area2] at this

end Hull
end PyrusGeom
