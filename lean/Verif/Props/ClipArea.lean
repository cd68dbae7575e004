import Verif.Props.PolygonClip
import Verif.Props.Area

/-! # C170: clipping is intersection -/

namespace PyrusGeom
open Spec Filter Topology MeasureTheory

/-- The sum of the signed crossings along an open chain. -/
noncomputable def chainSum (z : Pt) (L : List Pt) : ℤ := ((chainPairs L).map fun e => wn z e.1 e.2).sum

theorem chainSum_cons (z a b : Pt) (L : List Pt) : chainSum z (a :: b :: L) = wn z a b + chainSum z (b :: L) := by
  simp [chainSum]

theorem chainSum_single (z a : Pt) : chainSum z [a] = 0 := by
  simp [chainSum, chainPairs]

theorem winding_chain (z a : Pt) (t : List Pt) : winding (a :: t) z = chainSum z (a :: (t ++ [a])) := by
  unfold winding chainSum
  rw [cyclicPairs_eq_chain]

theorem wn_self (z a : Pt) : wn z a a = 0 := by
  have := wn_swap z a a
  omega

/-! ## Points on one side of a line -/

/-- An affine function. -/
def aff (a b c : ℝ) (z : Pt) : ℝ := a * z.1 + b * z.2 + c

theorem aff_bary (α β γ : ℝ) (a b c z : Pt) : aff α β γ z * area2 a b c =
    area2 b c z * aff α β γ a + area2 c a z * aff α β γ b + area2 a b z * aff α β γ c := by
  unfold aff area2; ring

theorem aff_seg {α β γ : ℝ} {a b z : Pt} (ha : aff α β γ a ≤ 0) (hb : aff α β γ b ≤ 0) (hz : 0 < aff α β γ z) : z ∉ segment ℝ a b := by
  intro h
  obtain ⟨t, t0, t1, hx, hy⟩ := mem_seg.mp h
  have : aff α β γ z = (1 - t) * aff α β γ a + t * aff α β γ b := by unfold aff; rw [hx, hy]; ring
  nlinarith

theorem triSign_side {α β γ : ℝ} {a b c z : Pt} (ha : aff α β γ a ≤ 0) (hb : aff α β γ b ≤ 0) (hc : aff α β γ c ≤ 0)
    (hz : 0 < aff α β γ z) : triSign a b c z = 0 := by
  have key := aff_bary α β γ a b c z
  have hs := area2_sum3 a b c z
  unfold triSign
  rw [if_neg, if_neg]
  · rintro ⟨h1, h2, h3⟩
    have : area2 a b c < 0 := by linarith
    have := mul_neg_of_pos_of_neg hz this
    have := mul_nonneg_of_nonpos_of_nonpos h2.le ha
    have := mul_nonneg_of_nonpos_of_nonpos h3.le hb
    have := mul_nonneg_of_nonpos_of_nonpos h1.le hc
    linarith
  · rintro ⟨h1, h2, h3⟩
    have : 0 < area2 a b c := by linarith
    have := mul_pos hz this
    have := mul_nonpos_of_nonneg_of_nonpos h2.le ha
    have := mul_nonpos_of_nonneg_of_nonpos h3.le hb
    have := mul_nonpos_of_nonneg_of_nonpos h1.le hc
    linarith

theorem wn_side {α β γ : ℝ} {a b c z : Pt} (ha : aff α β γ a ≤ 0) (hb : aff α β γ b ≤ 0) (hc : aff α β γ c ≤ 0)
    (hz : 0 < aff α β γ z) : wn z a b + wn z b c = wn z a c := by
  have h := tri_wn (aff_seg ha hb hz) (aff_seg hb hc hz) (aff_seg hc ha hz)
  rw [triSign_side ha hb hc hz, wn_swap z a c] at h
  omega

theorem wn_between {p q r z : Pt} (hq : q ∈ segment ℝ p r) (hz : z ∉ segment ℝ p r) : wn z p q + wn z q r = wn z p r := by
  have h1 : z ∉ segment ℝ p q := fun h => hz ((convex_segment p r).segment_subset (left_mem_segment ℝ _ _) hq h)
  have h2 : z ∉ segment ℝ q r := fun h => hz ((convex_segment p r).segment_subset hq (right_mem_segment ℝ _ _) h)
  have h := tri_wn h1 h2 (by rw [segment_symm]; exact hz)
  have h0 : area2 p q r = 0 := by
    have := area2_of_mem hq
    have e : area2 p q r = -area2 p r q := by unfold area2; ring
    rw [e, this, neg_zero]
  rw [triSign_zero h0, wn_swap z p r] at h
  omega

theorem winding_side {α β γ : ℝ} {l : List Pt} {z : Pt} (h : ∀ v ∈ l, aff α β γ v ≤ 0) (hz : 0 < aff α β γ z) :
    z ∉ outline l ∧ winding l z = 0 := by
  have ho : z ∉ outline l := by
    rintro ⟨e, he, hm⟩
    exact aff_seg (h _ (fst_mem_of_cyclicPairs he)) (h _ (snd_mem_of_cyclicPairs he)) hz hm
  refine ⟨ho, ?_⟩
  cases l with
  | nil => simp [winding]
  | cons a t =>
    rw [winding_fan (a :: t) a z ho fun v hv => aff_seg (h a (by simp)) (h v hv) hz]
    apply List.sum_eq_zero
    intro x hx
    obtain ⟨e, he, rfl⟩ := List.mem_map.mp hx
    exact triSign_side (h a (by simp)) (h _ (fst_mem_of_cyclicPairs he)) (h _ (snd_mem_of_cyclicPairs he)) hz

/-! ## The clipped list -/

/-- What one edge contributes. -/
noncomputable def Poly.emit (inR : Vec ℝ → Bool) (l : Line ℝ) (e : Vec ℝ × Vec ℝ) : List (Vec ℝ) :=
  if inR e.1 then if inR e.2 then [e.2] else [l.intersection (Line.ofPoints e.1 e.2)]
  else if inR e.2 then [l.intersection (Line.ofPoints e.1 e.2), e.2] else []

/-- No edge with ends on both sides is almost parallel to the line. -/
def Poly.ClipOk (inR : Vec ℝ → Bool) (pts : List (Vec ℝ)) (l : Line ℝ) : Prop :=
  ∀ e ∈ cyclicPairs pts, inR e.1 ≠ inR e.2 → l.isParallel (Line.ofPoints e.1 e.2) = false

theorem Poly.clipLoop_flatMap {inR : Vec ℝ → Bool} {l : Line ℝ} (E : List (Vec ℝ × Vec ℝ)) (acc : List (Vec ℝ))
    (hE : ∀ e ∈ E, inR e.1 ≠ inR e.2 → (l.intersection (Line.ofPoints e.1 e.2)).valid = true) :
    Poly.clipLoop inR l E acc = acc ++ E.flatMap (Poly.emit inR l) := by
  induction E generalizing acc with
  | nil => simp [Poly.clipLoop]
  | cons a E ih =>
    obtain ⟨p0, p1⟩ := a
    have hE' := fun e he => hE e (List.mem_cons_of_mem _ he)
    have hc := hE _ List.mem_cons_self
    simp only at hc
    rw [Poly.clipLoop, List.flatMap_cons]
    by_cases h0 : inR p0 = true <;> by_cases h1 : inR p1 = true
    · rw [if_pos h0, if_pos h1, ih _ hE']; simp [h0, h1, Poly.emit]
    · have := hc (by rw [h0]; exact fun h => h1 h.symm)
      rw [if_pos h0, if_neg h1]
      simp only
      rw [if_neg (by simp [this]), ih _ hE']; simp [h0, h1, Poly.emit]
    · have := hc (by rw [h1]; exact h0)
      rw [if_neg h0, if_pos h1]
      simp only
      rw [if_neg (by simp [this]), ih _ hE']; simp [h0, h1, Poly.emit]
    · rw [if_neg h0, if_neg h1, ih _ hE']; simp [h0, h1, Poly.emit]

theorem flatMap_rotate {α β : Type} (f : α → List β) (E : List α) (n : ℕ) : ∃ m, (E.rotate n).flatMap f = (E.flatMap f).rotate m := by
  rw [← List.rotate_mod]
  rcases Nat.eq_zero_or_pos E.length with h | h
  · have : E = [] := List.length_eq_zero_iff.mp h
    subst this
    exact ⟨0, by simp⟩
  · have hn := (Nat.mod_lt n h).le
    generalize n % E.length = k at hn
    refine ⟨((E.take k).flatMap f).length, ?_⟩
    rw [List.rotate_eq_drop_append_take hn, List.flatMap_append]
    have : E.flatMap f = (E.take k).flatMap f ++ (E.drop k).flatMap f := by
      rw [← List.flatMap_append, List.take_append_drop]
    rw [this, List.rotate_append_length_eq]

theorem Poly.emit_last {inR : Vec ℝ → Bool} {l : Line ℝ} (rest : List (Vec ℝ)) (p x : Vec ℝ) (hx : inR x = true) :
    ∃ M, (chainPairs (p :: (rest ++ [x]))).flatMap (Poly.emit inR l) = M ++ [x] := by
  induction rest generalizing p with
  | nil =>
    by_cases h : inR p = true
    · exact ⟨[], by simp [chainPairs, Poly.emit, h, hx]⟩
    · exact ⟨[l.intersection (Line.ofPoints p x)], by simp [chainPairs, Poly.emit, h, hx]⟩
  | cons a t ih =>
    obtain ⟨M, hM⟩ := ih a
    exact ⟨Poly.emit inR l (p, a) ++ M, by rw [List.cons_append, chainPairs_cons_cons, List.flatMap_cons, hM, List.append_assoc]⟩

section
variable {inR : Vec ℝ → Bool} {l : Line ℝ} {s : ℝ}

theorem Poly.mem_half {z : Pt} : z ∈ halfPlane l s ↔ 0 ≤ aff (s * l.a) (s * l.b) (s * l.c) z := by
  unfold halfPlane aff
  simp only [Set.mem_ofPred_eq]
  rw [show s * (l.a * z.1 + l.b * z.2 + l.c) = s * l.a * z.1 + s * l.b * z.2 + s * l.c by ring]

theorem Poly.on_line {z : Pt} (h : z ∈ l.pts) : aff (s * l.a) (s * l.b) (s * l.c) z = 0 := by
  have := Line.mem_pts.mp h
  unfold aff
  linear_combination s * this

theorem Poly.clip_chain (hR : ∀ v, inR v = true ↔ v.pt ∈ halfPlane l s) {z : Pt} (hz : 0 < aff (s * l.a) (s * l.b) (s * l.c) z)
    (rest : List (Vec ℝ)) (p u : Vec ℝ) (hu1 : inR p = true → u = p)
    (hu2 : inR p = false → aff (s * l.a) (s * l.b) (s * l.c) u.pt ≤ 0)
    (hlast : inR ((p :: rest).getLast (by simp)) = true)
    (hE : ∀ e ∈ chainPairs (p :: rest), inR e.1 ≠ inR e.2 → (l.intersection (Line.ofPoints e.1 e.2)).valid = true)
    (hoff : ∀ e ∈ chainPairs (p :: rest), z ∉ segment ℝ e.1.pt e.2.pt) :
    chainSum z ((u :: (chainPairs (p :: rest)).flatMap (Poly.emit inR l)).map Vec.pt) =
      wn z u.pt p.pt + chainSum z ((p :: rest).map Vec.pt) ∧
    ∀ e ∈ chainPairs ((u :: (chainPairs (p :: rest)).flatMap (Poly.emit inR l)).map Vec.pt), z ∉ segment ℝ e.1 e.2 := by
  set h := aff (s * l.a) (s * l.b) (s * l.c) with hh
  have hin : ∀ v : Vec ℝ, inR v = true ↔ 0 ≤ h v.pt := fun v => (hR v).trans Poly.mem_half
  have hout : ∀ v : Vec ℝ, inR v = false → h v.pt ≤ 0 := by
    intro v hv
    rw [← Bool.not_eq_true, hin] at hv
    linarith
  induction rest generalizing p u with
  | nil =>
    have : u = p := hu1 (by simpa using hlast)
    subst this
    simp [chainPairs, chainSum, wn_self]
  | cons q rest ih =>
    have hE' := fun e he => hE e (by rw [chainPairs_cons_cons]; exact List.mem_cons_of_mem _ he)
    have hoff' := fun e he => hoff e (by rw [chainPairs_cons_cons]; exact List.mem_cons_of_mem _ he)
    have hc := hE (p, q) (by rw [chainPairs_cons_cons]; exact List.mem_cons_self)
    have ho : z ∉ segment ℝ p.pt q.pt := hoff (p, q) (by rw [chainPairs_cons_cons]; exact List.mem_cons_self)
    have hlast' : inR ((q :: rest).getLast (by simp)) = true := by rwa [List.getLast_cons (by simp)] at hlast
    rw [chainPairs_cons_cons, List.flatMap_cons]
    simp only [List.map_cons] at ih ⊢
    rw [chainSum_cons z p.pt q.pt]
    set c := l.intersection (Line.ofPoints p q) with hcdef
    have hcut : inR p ≠ inR q → c.pt ∈ segment ℝ p.pt q.pt ∧ h c.pt = 0 := by
      intro hne
      have hne' : ¬ (p.pt ∈ halfPlane l s ↔ q.pt ∈ halfPlane l s) := by
        rw [← hR, ← hR, ← Bool.eq_iff_iff]; exact hne
      have := Poly.cut_mem hne' (hc hne)
      exact ⟨this.1, Poly.on_line this.2⟩
    by_cases h0 : inR p = true <;> by_cases h1 : inR q = true
    · have : u = p := hu1 h0
      subst this
      obtain ⟨i1, i2⟩ := ih q q (fun _ => rfl) hlast' hE' hoff' (fun h => absurd h1 (by simp [h]))
      have e : Poly.emit inR l (u, q) = [q] := by simp [Poly.emit, h0, h1]
      rw [e]
      simp only [List.cons_append, List.nil_append, List.map_cons]
      refine ⟨?_, ?_⟩
      · rw [chainSum_cons, i1, wn_self, wn_self]; ring
      · intro f hf
        rw [chainPairs_cons_cons] at hf
        rcases List.mem_cons.mp hf with rfl | hf
        · exact ho
        · exact i2 f hf
    · have : u = p := hu1 h0
      subst this
      have h1' : inR q = false := by simpa using h1
      obtain ⟨k1, k2⟩ := hcut (by rw [h0, h1']; decide)
      obtain ⟨i1, i2⟩ := ih q c (fun h => absurd h h1) hlast' hE' hoff' (fun _ => k2.le)
      have e : Poly.emit inR l (u, q) = [c] := by simp [Poly.emit, h0, h1, hcdef]
      rw [e]
      simp only [List.cons_append, List.nil_append, List.map_cons]
      refine ⟨?_, ?_⟩
      · rw [chainSum_cons, i1, wn_self, ← wn_between k1 ho]; ring
      · intro f hf
        rw [chainPairs_cons_cons] at hf
        rcases List.mem_cons.mp hf with rfl | hf
        · exact fun hm => ho ((convex_segment u.pt q.pt).segment_subset (left_mem_segment ℝ _ _) k1 hm)
        · exact i2 f hf
    · have h0' : inR p = false := by simpa using h0
      obtain ⟨k1, k2⟩ := hcut (by rw [h1, h0']; decide)
      obtain ⟨i1, i2⟩ := ih q q (fun _ => rfl) hlast' hE' hoff' (fun h => absurd h1 (by simp [h]))
      have e : Poly.emit inR l (p, q) = [c, q] := by simp [Poly.emit, h0, h1, hcdef]
      rw [e]
      simp only [List.cons_append, List.nil_append, List.map_cons]
      refine ⟨?_, ?_⟩
      · rw [chainSum_cons, chainSum_cons, i1, wn_self, ← wn_between k1 ho, ← wn_side (hu2 h0') (hout p h0') k2.le hz]; ring
      · intro f hf
        rw [chainPairs_cons_cons, chainPairs_cons_cons] at hf
        rcases List.mem_cons.mp hf with rfl | hf
        · exact aff_seg (hu2 h0') k2.le hz
        · rcases List.mem_cons.mp hf with rfl | hf
          · exact fun hm => ho ((convex_segment p.pt q.pt).segment_subset k1 (right_mem_segment ℝ _ _) hm)
          · exact i2 f hf
    · have h0' : inR p = false := by simpa using h0
      have h1' : inR q = false := by simpa using h1
      obtain ⟨i1, i2⟩ := ih q u (fun h => absurd h h1) hlast' hE' hoff' (fun _ => hu2 h0')
      have e : Poly.emit inR l (p, q) = [] := by simp [Poly.emit, h0, h1]
      rw [e]
      simp only [List.nil_append]
      refine ⟨?_, i2⟩
      rw [i1, ← wn_side (hu2 h0') (hout p h0') (hout q h1') hz]; ring

/-- **C170** for a half plane. -/
theorem Poly.clip_winding (hR : ∀ v, inR v = true ↔ v.pt ∈ halfPlane l s) (pts : List (Vec ℝ)) (hp : Poly.ClipOk inR pts l) (hs : s ≠ 0)
    {z : Pt} (hz : z ∉ outline (pts.map Vec.pt)) (hl : z ∉ l.pts) :
    z ∉ outline ((Poly.lineClipped inR pts l).map Vec.pt) ∧
    (z ∈ halfPlane l s → winding ((Poly.lineClipped inR pts l).map Vec.pt) z = winding (pts.map Vec.pt) z) ∧
    (z ∉ halfPlane l s → winding ((Poly.lineClipped inR pts l).map Vec.pt) z = 0) := by
  have hval : ∀ e ∈ cyclicPairs pts, inR e.1 ≠ inR e.2 → (l.intersection (Line.ofPoints e.1 e.2)).valid = true :=
    fun e he hne => (C21_intersection l (Line.ofPoints e.1 e.2)).1.mpr (hp e he hne)
  have hne : aff (s * l.a) (s * l.b) (s * l.c) z ≠ 0 := by
    intro h0
    apply hl
    rw [Line.mem_pts]
    have : s * (l.a * z.1 + l.b * z.2 + l.c) = 0 := by rw [← h0]; unfold aff; ring
    exact (mul_eq_zero.mp this).resolve_left hs
  have hin : ∀ v : Vec ℝ, inR v = true ↔ 0 ≤ aff (s * l.a) (s * l.b) (s * l.c) v.pt := fun v => (hR v).trans Poly.mem_half
  rw [Poly.mem_half]
  rcases lt_or_gt_of_ne hne with hlt | hgt
  · -- outside
    have neg : ∀ w : Pt, aff (-(s * l.a)) (-(s * l.b)) (-(s * l.c)) w = -aff (s * l.a) (s * l.b) (s * l.c) w := fun w => by
      unfold aff; ring
    obtain ⟨h1, h2⟩ := winding_side (α := -(s * l.a)) (β := -(s * l.b)) (γ := -(s * l.c)) (z := z)
      (l := (Poly.lineClipped inR pts l).map Vec.pt) (by
        intro v hv
        obtain ⟨w, hw, rfl⟩ := List.mem_map.mp hv
        have := Poly.mem_half.mp (C76_sound inR l s hR pts w hw).1
        rw [neg]; linarith) (by rw [neg]; linarith)
    exact ⟨h1, fun h => absurd h (not_le.mpr hlt), fun _ => h2⟩
  · have hfm : Poly.lineClipped inR pts l = (cyclicPairs pts).flatMap (Poly.emit inR l) := by
      unfold Poly.lineClipped
      rw [Poly.clipLoop_flatMap _ _ hval, List.nil_append]
    suffices h : z ∉ outline ((Poly.lineClipped inR pts l).map Vec.pt) ∧
        winding ((Poly.lineClipped inR pts l).map Vec.pt) z = winding (pts.map Vec.pt) z from
      ⟨h.1, fun _ => h.2, fun h' => absurd hgt.le h'⟩
    by_cases hex : ∃ v ∈ pts, inR v = true
    · obtain ⟨v, hv, hvin⟩ := hex
      obtain ⟨n, hn, rfl⟩ := List.mem_iff_getElem.mp hv
      obtain ⟨t, ht⟩ : ∃ t, pts.rotate n = pts[n] :: t := by
        rw [List.rotate_eq_drop_append_take hn.le, List.drop_eq_getElem_cons hn]
        exact ⟨_, rfl⟩
      generalize pts[n] = v at ht hvin
      obtain ⟨m, hm⟩ := flatMap_rotate (Poly.emit inR l) (cyclicPairs pts) n
      rw [← cyclicPairs_rotate, ht, cyclicPairs_eq_chain] at hm
      obtain ⟨M, hM⟩ := Poly.emit_last (l := l) t v v hvin
      rw [hM] at hm
      have hlast : inR ((v :: (t ++ [v])).getLast (by simp)) = true := by simpa using hvin
      have hmem : ∀ e ∈ chainPairs (v :: (t ++ [v])), e ∈ cyclicPairs pts := by
        intro e he
        rw [← cyclicPairs_eq_chain, ← ht, cyclicPairs_rotate] at he
        exact List.mem_rotate.mp he
      obtain ⟨k1, k2⟩ := Poly.clip_chain hR hgt (t ++ [v]) v v (fun _ => rfl) (fun h => absurd hvin (by simp [h])) hlast
        (fun e he => hval e (hmem e he)) (fun e he hseg => hz ⟨(e.1.pt, e.2.pt), by
          rw [cyclicPairs_map]; exact List.mem_map_of_mem (f := Prod.map Vec.pt Vec.pt) (hmem e he), hseg⟩)
      rw [hM] at k1 k2
      -- the clipped list is `M` followed by `v`, up to rotation
      have hC : ((Poly.lineClipped inR pts l).map Vec.pt).rotate m = M.map Vec.pt ++ [v.pt] := by
        rw [hfm, ← List.map_rotate, ← hm]; simp
      have hC' : ((Poly.lineClipped inR pts l).map Vec.pt).rotate (m + M.length) = v.pt :: M.map Vec.pt := by
        rw [← List.rotate_rotate, hC]
        have := List.rotate_append_length_eq (M.map Vec.pt) [v.pt]
        rw [List.length_map] at this
        rw [this]; rfl
      refine ⟨?_, ?_⟩
      · rw [← outline_rotate _ (m + M.length), hC']
        rintro ⟨e, he, hseg⟩
        rw [cyclicPairs_eq_chain] at he
        exact k2 e (by simpa using he) hseg
      · rw [← winding_rotate _ (m + M.length), hC', winding_chain, ← winding_rotate (pts.map Vec.pt) n, ← List.map_rotate, ht,
          List.map_cons, winding_chain]
        simp only [List.map_cons, List.map_append, List.map_nil, wn_self, zero_add] at k1
        exact k1
    · have hall : ∀ v ∈ pts, inR v = false := by
        intro v hv
        by_contra hc
        exact hex ⟨v, hv, by simpa using hc⟩
      have hnil : Poly.lineClipped inR pts l = [] := by
        rw [hfm, List.flatMap_eq_nil_iff]
        intro e he
        have h1 := hall _ (fst_mem_of_cyclicPairs he)
        have h2 := hall _ (snd_mem_of_cyclicPairs he)
        simp [Poly.emit, h1, h2]
      rw [hnil]
      have hside := winding_side (α := s * l.a) (β := s * l.b) (γ := s * l.c) (z := z) (l := pts.map Vec.pt) (by
        intro w hw
        obtain ⟨v, hv, rfl⟩ := List.mem_map.mp hw
        have := hall v hv
        rw [← Bool.not_eq_true, hin] at this
        linarith) hgt
      rw [hside.2]
      exact ⟨by simp [outline], by simp [winding]⟩

/-- **C170** A point off the outline and off the line is in the clipped polygon exactly if it is in the polygon and in the half plane. -/
theorem C170_half_plane_partial (hR : ∀ v, inR v = true ↔ v.pt ∈ halfPlane l s) (pts : List (Vec ℝ)) (hp : Poly.ClipOk inR pts l)
    (hs : s ≠ 0) (p : Vec ℝ) (hz : p.pt ∉ outline (pts.map Vec.pt)) (hl : p.pt ∉ l.pts) :
    (Poly.ofList (Poly.lineClipped inR pts l)).contains p true = ((Poly.ofList pts).contains p true && inR p) := by
  obtain ⟨h1, h2, h3⟩ := Poly.clip_winding hR pts hp hs hz hl
  rw [Bool.eq_iff_iff, Bool.and_eq_true, hR, contains_iff_winding (Poly.ofList (Poly.lineClipped inR pts l)) p h1,
    contains_iff_winding (Poly.ofList pts) p hz]
  change Odd (winding ((Poly.lineClipped inR pts l).map Vec.pt) p.pt) ↔ Odd (winding (pts.map Vec.pt) p.pt) ∧ _
  by_cases hh : p.pt ∈ halfPlane l s
  · rw [h2 hh]; simp [hh]
  · rw [h3 hh]; simp [hh]

theorem volume_linePts (l : Line ℝ) (h : l.a ≠ 0 ∨ l.b ≠ 0) : volume l.pts = 0 := by
  have hd : 0 < l.a ^ 2 + l.b ^ 2 := by
    rcases h with h | h
    · have := sq_nonneg l.b; have : 0 < l.a ^ 2 := by positivity
      linarith
    · have := sq_nonneg l.a; have : 0 < l.b ^ 2 := by positivity
      linarith
  set P : Pt := (-(l.a * l.c) / (l.a ^ 2 + l.b ^ 2), -(l.b * l.c) / (l.a ^ 2 + l.b ^ 2)) with hP
  have hne : P ≠ P + (-l.b, l.a) := by
    intro e
    have e1 := congrArg Prod.fst e
    have e2 := congrArg Prod.snd e
    simp only [Prod.fst_add, Prod.snd_add] at e1 e2
    rcases h with h | h
    · exact h (by linarith)
    · exact h (by linarith)
  refine measure_mono_null (fun z hz => ?_) (volume_line hne)
  have := Line.mem_pts.mp hz
  simp only [Set.mem_ofPred_eq, area2, Prod.fst_add, Prod.snd_add, hP]
  field_simp
  linear_combination -(l.a ^ 2 + l.b ^ 2) ^ 2 * this

theorem measurableSet_halfPlane (l : Line ℝ) (s : ℝ) : MeasurableSet (halfPlane l s) := by
  unfold halfPlane
  exact (isClosed_le continuous_const (by fun_prop)).measurableSet

/-- **C170** The signed area of the clipped polygon is that of the part of the polygon in the half plane, parts counted with the winding
number; for a simple polygon the area is the measure of the contained points in the half plane. -/
theorem C170_area_partial (hR : ∀ v, inR v = true ↔ v.pt ∈ halfPlane l s) (pts : List (Vec ℝ)) (hp : Poly.ClipOk inR pts l)
    (hs : s ≠ 0) (hab : l.a ≠ 0 ∨ l.b ≠ 0) :
    (Poly.ofList (Poly.lineClipped inR pts l)).doubleSignedArea = 2 * ∫ z in halfPlane l s, (winding (pts.map Vec.pt) z : ℝ) ∧
    (Simple (pts.map Vec.pt) → ∀ allow,
      volume ({z : Pt | (Poly.ofList pts).contains (Vec.ofXY z.1 z.2) allow = true} ∩ halfPlane l s) =
        ENNReal.ofReal (Poly.ofList (Poly.lineClipped inR pts l)).area) := by
  refine area_of_winding (poly := Poly.ofList pts) (poly' := Poly.ofList (Poly.lineClipped inR pts l)) (measurableSet_halfPlane l s) ?_
  have h1 : ∀ᵐ z : Pt, z ∉ outline (pts.map Vec.pt) := measure_eq_zero_iff_ae_notMem.mp (volume_outline _)
  have h2 : ∀ᵐ z : Pt, z ∉ l.pts := measure_eq_zero_iff_ae_notMem.mp (volume_linePts l hab)
  classical
  filter_upwards [h1, h2] with z hz hl
  obtain ⟨-, k2, k3⟩ := Poly.clip_winding hR pts hp hs hz hl
  rw [Set.indicator_apply]
  change (winding ((Poly.lineClipped inR pts l).map Vec.pt) z : ℝ) = if _ then (winding (pts.map Vec.pt) z : ℝ) else 0
  split_ifs with hh
  · rw [k2 hh]
  · rw [k3 hh]; norm_num

end

/-! ## Rectangles -/

/-- The side lines of the rectangle as the code builds them. -/
noncomputable def vline (x : ℝ) : Line ℝ := Line.ofAngle (Vec.ofXY x (num 0)) (AngleDeg.ofNum (num 90))
noncomputable def hline (y : ℝ) : Line ℝ := Line.ofAngle (Vec.ofXY (num 0) y) (AngleDeg.ofNum (num 0))

/-- No edge cut in one of the steps is almost parallel to the cutting line. The step for the lower side does nothing for the polygons
considered. -/
def Poly.RectOk (poly : Poly ℝ) (r : Rect ℝ) : Prop :=
  let c1 := Poly.lineClipped (fun v => decide (v.x ≤ r.right)) poly.vertices (vline r.right)
  let c3 := Poly.lineClipped (fun v => decide (r.left ≤ v.x)) (c1.rotate 1) (vline r.left)
  Poly.ClipOk (fun v => decide (v.x ≤ r.right)) poly.vertices (vline r.right) ∧
  Poly.ClipOk (fun v => decide (r.left ≤ v.x)) (c1.rotate 1) (vline r.left) ∧
  Poly.ClipOk (fun v => decide (r.top ≤ v.y)) c3 (hline r.top)

theorem Poly.rect_winding (poly : Poly ℝ) (hne : poly.vertices ≠ []) (r : Rect ℝ) (hb : ∀ v ∈ poly.vertices, v.y ≤ r.bottom)
    (ok : poly.RectOk r) {z : Pt} (hz : z ∉ outline poly.pts) (h1 : z.1 ≠ r.left) (h2 : z.1 ≠ r.right) (h3 : z.2 ≠ r.top) :
    z ∉ outline (poly.rectClipped r).pts ∧ (z ∈ r.pts → winding (poly.rectClipped r).pts z = winding poly.pts z) ∧
    (z ∉ r.pts → winding (poly.rectClipped r).pts z = 0) := by
  have hR1 : ∀ v : Vec ℝ, decide (v.x ≤ r.right) = true ↔ v.pt ∈ halfPlane (vline r.right) 1 := by
    intro v; simp only [halfPlane, Set.mem_ofPred_eq, vline]; rw [vline_val]; simp
  have hR3 : ∀ v : Vec ℝ, decide (r.left ≤ v.x) = true ↔ v.pt ∈ halfPlane (vline r.left) (-1) := by
    intro v; simp only [halfPlane, Set.mem_ofPred_eq, vline]; rw [vline_val]; simp
  have hR4 : ∀ v : Vec ℝ, decide (r.top ≤ v.y) = true ↔ v.pt ∈ halfPlane (hline r.top) 1 := by
    intro v; simp only [halfPlane, Set.mem_ofPred_eq, hline]; rw [hline_val]; simp
  have m1 : z ∈ halfPlane (vline r.right) 1 ↔ z.1 ≤ r.right := by
    simp only [halfPlane, Set.mem_ofPred_eq, vline]; rw [vline_val]; simp
  have m3 : z ∈ halfPlane (vline r.left) (-1) ↔ r.left ≤ z.1 := by
    simp only [halfPlane, Set.mem_ofPred_eq, vline]; rw [vline_val]; simp
  have m4 : z ∈ halfPlane (hline r.top) 1 ↔ r.top ≤ z.2 := by
    simp only [halfPlane, Set.mem_ofPred_eq, hline]; rw [hline_val]; simp
  have n1 : z ∉ (vline r.right).pts := by
    rw [Line.mem_pts, vline, vline_val]; intro h; exact h2 (by linarith)
  have n3 : z ∉ (vline r.left).pts := by
    rw [Line.mem_pts, vline, vline_val]; intro h; exact h1 (by linarith)
  have n4 : z ∉ (hline r.top).pts := by
    rw [Line.mem_pts, hline, hline_val]; intro h; exact h3 (by linarith)
  have hv := Poly.rectClipped_vertices poly hne r
  simp only at hv
  obtain ⟨ok1, ok3, ok4⟩ := ok
  have hb1 : ∀ v ∈ Poly.lineClipped (fun v => decide (v.x ≤ r.right)) poly.vertices (vline r.right), v.y ≤ r.bottom := by
    intro v hv
    refine (Poly.clip_convex hR1 (C := {z : Pt | z.2 ≤ r.bottom}) ?_ hb v hv).1
    intro z hz w hw s t hs ht hst
    simp only [Set.mem_ofPred_eq] at hz hw ⊢
    obtain rfl : s = 1 - t := by linarith
    simp only [Prod.snd_add, Prod.smul_snd, smul_eq_mul]; nlinarith
  change _ = Poly.lineClipped (fun v => decide (r.top ≤ v.y)) (Poly.lineClipped (fun v => decide (r.left ≤ v.x))
    (Poly.lineClipped (fun v => decide (v.y ≤ r.bottom)) (Poly.lineClipped (fun v => decide (v.x ≤ r.right)) poly.vertices
      (vline r.right)) (hline r.top)) (vline r.left)) (hline r.top) at hv
  rw [C76_all_inside (fun v => decide (v.y ≤ r.bottom)) _ _ (fun v hv => by simpa using hb1 v hv)] at hv
  unfold Poly.pts at hz ⊢
  rw [hv]
  obtain ⟨a1, a2, a3⟩ := Poly.clip_winding hR1 _ ok1 (by norm_num) hz n1
  set c1 := Poly.lineClipped (fun v => decide (v.x ≤ r.right)) poly.vertices (vline r.right) with hc1
  rw [← outline_rotate _ 1, ← List.map_rotate] at a1
  rw [← winding_rotate _ 1, ← List.map_rotate] at a2 a3
  obtain ⟨b1, b2, b3⟩ := Poly.clip_winding hR3 _ ok3 (by norm_num) a1 n3
  obtain ⟨d1, d2, d3⟩ := Poly.clip_winding hR4 _ ok4 (by norm_num) b1 n4
  rw [m1] at a2 a3
  rw [m3] at b2 b3
  rw [m4] at d2 d3
  have hbot : ¬ z.2 ≤ r.bottom → winding (poly.vertices.map Vec.pt) z = 0 := by
    intro h
    refine (winding_side (α := 0) (β := 1) (γ := -r.bottom) (z := z) (fun w hw => ?_) (by unfold aff; linarith)).2
    obtain ⟨v, hv, rfl⟩ := List.mem_map.mp hw
    have := hb v hv
    unfold aff; simp only [Vec.pt_snd]; linarith
  refine ⟨d1, ?_, ?_⟩
  · rintro ⟨k1, k2, k3, k4⟩
    rw [d2 k3, b2 k1, a2 k2]
  · intro hn
    by_cases k3 : r.top ≤ z.2
    · rw [d2 k3]
      by_cases k1 : r.left ≤ z.1
      · rw [b2 k1]
        by_cases k2 : z.1 ≤ r.right
        · rw [a2 k2]
          exact hbot fun k4 => hn ⟨k1, k2, k3, k4⟩
        · exact a3 k2
      · exact b3 k1
    · exact d3 k3

/-- **C170** A point off the outline and off the sides is in the clipped polygon exactly if it is in the polygon and in the rectangle. -/
theorem C170_rect_partial (poly : Poly ℝ) (hne : poly.vertices ≠ []) (r : Rect ℝ) (hb : ∀ v ∈ poly.vertices, v.y ≤ r.bottom)
    (ok : poly.RectOk r) (p : Vec ℝ) (hz : p.pt ∉ outline poly.pts) (h1 : p.x ≠ r.left) (h2 : p.x ≠ r.right) (h3 : p.y ≠ r.top) :
    (poly.rectClipped r).contains p true = (poly.contains p true && r.contains p) := by
  obtain ⟨k1, k2, k3⟩ := Poly.rect_winding poly hne r hb ok hz h1 h2 h3
  have hc : r.contains p = true ↔ p.pt ∈ r.pts := by
    simp only [Rect.contains, Bool.and_eq_true, decide_eq_true_eq, and_assoc]; rfl
  rw [Bool.eq_iff_iff, Bool.and_eq_true, hc, contains_iff_winding _ p k1, contains_iff_winding _ p hz]
  by_cases hh : p.pt ∈ r.pts
  · rw [k2 hh]; simp [hh]
  · rw [k3 hh]; simp [hh]

/-- **C170** The area of the polygon clipped by a rectangle is the measure of the contained points in the rectangle. -/
theorem C170_rect_area_partial (poly : Poly ℝ) (hne : poly.vertices ≠ []) (r : Rect ℝ) (hb : ∀ v ∈ poly.vertices, v.y ≤ r.bottom)
    (ok : poly.RectOk r) :
    (poly.rectClipped r).doubleSignedArea = 2 * ∫ z in r.pts, (winding poly.pts z : ℝ) ∧
    (Simple poly.pts → ∀ allow, volume ({z : Pt | poly.contains (Vec.ofXY z.1 z.2) allow = true} ∩ r.pts) =
      ENNReal.ofReal (poly.rectClipped r).area) := by
  have hm : MeasurableSet r.pts := by
    have : r.pts = Set.Icc r.left r.right ×ˢ Set.Icc r.top r.bottom := by
      ext z; simp only [Rect.mem_pts, Set.mem_prod, Set.mem_Icc, and_assoc]
    rw [this]
    exact measurableSet_Icc.prod measurableSet_Icc
  refine area_of_winding hm ?_
  have h1 : ∀ᵐ z : Pt, z ∉ outline poly.pts := measure_eq_zero_iff_ae_notMem.mp (volume_outline _)
  have hv : ∀ x : ℝ, ∀ᵐ z : Pt, z.1 ≠ x := by
    intro x
    have h : {z : Pt | area2 (x, 0) (x, 1) z = 0} = {z : Pt | z.1 = x} := by
      ext z; simp only [area2, Set.mem_ofPred_eq]
      constructor <;> intro h <;> linarith
    have := volume_line (a := (x, 0)) (b := (x, 1)) (by simp)
    rw [h] at this
    exact measure_eq_zero_iff_ae_notMem.mp this
  have hh : ∀ᵐ z : Pt, z.2 ≠ r.top := by
    have h : {z : Pt | area2 (0, r.top) (1, r.top) z = 0} = {z : Pt | z.2 = r.top} := by
      ext z; simp only [area2, Set.mem_ofPred_eq]
      constructor <;> intro h <;> linarith
    have := volume_line (a := (0, r.top)) (b := (1, r.top)) (by simp)
    rw [h] at this
    exact measure_eq_zero_iff_ae_notMem.mp this
  classical
  filter_upwards [h1, hv r.left, hv r.right, hh] with z hz k1 k2 k3
  obtain ⟨-, l2, l3⟩ := Poly.rect_winding poly hne r hb ok hz k1 k2 k3
  rw [Set.indicator_apply]
  split_ifs with hh
  · rw [l2 hh]
  · rw [l3 hh]; norm_num

/-! ## Counterexamples and examples -/

/-- Without the guard on nearly parallel edges, clipping to a half plane can lose everything. -/
theorem C170_refuted_half_plane : ∃ (inR : Vec ℝ → Bool) (l : Line ℝ) (s : ℝ) (pts : List (Vec ℝ)) (p : Vec ℝ), s ≠ 0 ∧
    (∀ v, inR v = true ↔ v.pt ∈ halfPlane l s) ∧ Simple (pts.map Vec.pt) ∧ p.pt ∉ outline (pts.map Vec.pt) ∧ p.pt ∉ l.pts ∧
    (Poly.ofList pts).contains p true = true ∧ inR p = true ∧
    (Poly.ofList (Poly.lineClipped inR pts l)).contains p true = false := by
  set pts : List (Vec ℝ) := [Vec.ofXY 0 (-1 / 10 ^ 8), Vec.ofXY 4 (1 / 10 ^ 8), Vec.ofXY 2 5] with hpts
  have e1 : cyclicPairs (pts.map Vec.pt) =
      [((0, -1 / 10 ^ 8), (4, 1 / 10 ^ 8)), ((4, 1 / 10 ^ 8), (2, 5)), (((2, 5), (0, -1 / 10 ^ 8)) : Pt × Pt)] := rfl
  have hoff : ((2, 1) : Pt) ∉ outline (pts.map Vec.pt) := by
    rintro ⟨e, he, hz⟩
    rw [e1] at he
    simp only [List.mem_cons, List.not_mem_nil, or_false] at he
    rcases he with rfl | rfl | rfl <;> exact notMem_of_area2 (by norm_num [area2]) hz
  have w1 : winding (pts.map Vec.pt) (2, 1) = 1 := by
    unfold winding
    rw [e1]
    norm_num [wn, area2]
  refine ⟨fun v => decide (0 ≤ v.y), Line.ofABC 0 1 0, 1, pts, ⟨2, 1, true⟩, by norm_num, ?_, ?_, hoff, ?_, ?_, by simp, ?_⟩
  · intro v; simp [halfPlane, Line.ofABC]
  · refine ⟨by simp [hpts], ?_, ?_⟩
    · norm_num [hpts, Vec.pt]
    · rw [e1]
      intro e he f hf hne z hz hz'
      simp only [List.mem_cons, List.not_mem_nil, or_false] at he hf
      obtain ⟨x, y⟩ := z
      rcases he with rfl | rfl | rfl <;> rcases hf with rfl | rfl | rfl <;>
        first
        | exact absurd rfl hne
        | (obtain ⟨s, s0, s1, h1, h2⟩ := mem_seg.mp hz
           obtain ⟨t, t0, t1, h3, h4⟩ := mem_seg.mp hz'
           simp only at h1 h2 h3 h4
           simp only [Prod.mk.injEq]
           first
           | exact Or.inl ⟨⟨by linarith, by linarith⟩, by linarith, by linarith⟩
           | exact Or.inr ⟨⟨by linarith, by linarith⟩, by linarith, by linarith⟩)
  · rw [Line.mem_pts]; simp [Line.ofABC, Vec.pt]
  · rw [contains_iff_winding (Poly.ofList pts) ⟨2, 1, true⟩ hoff]
    change Odd (winding (pts.map Vec.pt) (2, 1))
    rw [w1]; decide
  · have : Poly.lineClipped (fun v => decide (0 ≤ v.y)) pts (Line.ofABC (0:ℝ) 1 0) = [] := by
      unfold Poly.lineClipped cyclicPairs
      simp only [hpts, List.cons_append, List.nil_append, List.zip_cons_cons, List.zip_nil_right]
      rw [Poly.clipLoop, if_neg (by norm_num), if_pos (by norm_num)]
      have : ((Line.ofABC (0:ℝ) 1 0).intersection (Line.ofPoints (Vec.ofXY 0 (-1 / 10 ^ 8)) (Vec.ofXY 4 (1 / 10 ^ 8)))).valid
          = false := by
        rw [Line.intersection_real, if_pos]
        · rfl
        · rw [EPSILON_real]; simp only [Line.ofABC, Line.ofPoints, Vec.ofXY_x, Vec.ofXY_y]
          rw [abs_lt]; norm_num
      simp only
      rw [if_pos (by rw [this]; rfl)]
    rw [this]; rfl

/-- A polygon reaching below the lower side: the code cuts it at the wrong line, and the result contains points that the polygon does
not contain. -/
theorem C170_refuted_rect : ∃ (poly : Poly ℝ) (r : Rect ℝ) (p : Vec ℝ), poly.vertices ≠ [] ∧ poly.RectOk r ∧ p.pt ∉ outline poly.pts ∧
    p.x ≠ r.left ∧ p.x ≠ r.right ∧ p.y ≠ r.top ∧ p.y ≠ r.bottom ∧ poly.contains p true = false ∧
    (poly.rectClipped r).contains p true = true := by
  set poly : Poly ℝ := Poly.ofList [Vec.ofXY 3 2, Vec.ofXY 0 8, Vec.ofXY 0 1] with hpoly
  set r : Rect ℝ := Rect.ofLTLW 0 0 3 4 with hr
  have el : r.left = 0 := rfl
  have et : r.top = 0 := rfl
  have er : r.right = 3 := by simp [hr, Rect.right, Rect.ofLTLW, Rect.left]
  have eb : r.bottom = 4 := by simp [hr, Rect.bottom, Rect.ofLTLW, Rect.top]
  have e1 : cyclicPairs poly.pts = [((3, 2), (0, 8)), ((0, 8), (0, 1)), (((0, 1), (3, 2)) : Pt × Pt)] := rfl
  have e2 : cyclicPairs (poly.rectClipped r).pts =
      [((3, 2), (4, 0)), ((4, 0), (0, 0)), ((0, 0), (0, 1)), (((0, 1), (3, 2)) : Pt × Pt)] := by
    unfold Poly.pts; rw [Poly.rect_example]; rfl
  have hoff : ((2, 1 / 2) : Pt) ∉ outline poly.pts := by
    rintro ⟨e, he, hz⟩
    rw [e1] at he
    simp only [List.mem_cons, List.not_mem_nil, or_false] at he
    rcases he with rfl | rfl | rfl <;> exact notMem_of_area2 (by norm_num [area2]) hz
  have hoff2 : ((2, 1 / 2) : Pt) ∉ outline (poly.rectClipped r).pts := by
    rintro ⟨e, he, hz⟩
    rw [e2] at he
    simp only [List.mem_cons, List.not_mem_nil, or_false] at he
    rcases he with rfl | rfl | rfl | rfl <;> exact notMem_of_area2 (by norm_num [area2]) hz
  have mem3 : ∀ v ∈ poly.vertices, v = Vec.ofXY 3 2 ∨ v = Vec.ofXY 0 8 ∨ v = Vec.ofXY 0 1 := by
    intro v hv
    simpa [hpoly, Poly.ofList] using hv
  refine ⟨poly, r, ⟨2, 1 / 2, true⟩, by simp [hpoly, Poly.ofList], ⟨?_, ?_, ?_⟩, hoff, ?_, ?_, ?_, ?_, ?_, ?_⟩
  · intro e he hne
    refine absurd ?_ hne
    have h1 := mem3 _ (fst_mem_of_cyclicPairs he)
    have h2 := mem3 _ (snd_mem_of_cyclicPairs he)
    rw [er]
    rcases h1 with h1 | h1 | h1 <;> rcases h2 with h2 | h2 | h2 <;> rw [h1, h2] <;> norm_num
  · rw [C76_all_inside (fun v => decide (v.x ≤ r.right)) _ poly.vertices (by
      intro v hv
      rw [er]
      rcases mem3 v hv with rfl | rfl | rfl <;> norm_num)]
    intro e he hne
    refine absurd ?_ hne
    have h1 := mem3 _ (List.mem_rotate.mp (List.mem_rotate.mp (fst_mem_of_cyclicPairs he)))
    have h2 := mem3 _ (List.mem_rotate.mp (List.mem_rotate.mp (snd_mem_of_cyclicPairs he)))
    rw [el]
    rcases h1 with h1 | h1 | h1 <;> rcases h2 with h2 | h2 | h2 <;> rw [h1, h2] <;> norm_num
  · rw [C76_all_inside (fun v => decide (v.x ≤ r.right)) _ poly.vertices (by
      intro v hv
      rw [er]
      rcases mem3 v hv with rfl | rfl | rfl <;> norm_num)]
    rw [C76_all_inside (fun v => decide (r.left ≤ v.x)) _ _ (by
      intro v hv
      rw [el]
      rcases mem3 v (List.mem_rotate.mp (List.mem_rotate.mp hv)) with rfl | rfl | rfl <;> norm_num)]
    intro e he hne
    refine absurd ?_ hne
    have h1 := mem3 _ (List.mem_rotate.mp (List.mem_rotate.mp (List.mem_rotate.mp (fst_mem_of_cyclicPairs he))))
    have h2 := mem3 _ (List.mem_rotate.mp (List.mem_rotate.mp (List.mem_rotate.mp (snd_mem_of_cyclicPairs he))))
    rw [et]
    rcases h1 with h1 | h1 | h1 <;> rcases h2 with h2 | h2 | h2 <;> rw [h1, h2] <;> norm_num
  · rw [el]; norm_num
  · rw [er]; norm_num
  · rw [et]; norm_num
  · rw [eb]; norm_num
  · rw [← Bool.not_eq_true, contains_iff_winding _ _ hoff]
    change ¬ Odd (winding poly.pts (2, 1 / 2))
    have : winding poly.pts (2, 1 / 2) = 0 := by
      unfold winding
      rw [e1]
      norm_num [wn, area2]
    rw [this]; decide
  · rw [contains_iff_winding _ _ hoff2]
    change Odd (winding (poly.rectClipped r).pts (2, 1 / 2))
    have : winding (poly.rectClipped r).pts (2, 1 / 2) = -1 := by
      unfold winding
      rw [e2]
      norm_num [wn, area2]
    rw [this]; decide

/-- What remains of the dart left of `x = 2`. -/
theorem dart_clip : Poly.lineClipped (fun v => decide (v.x ≤ 2)) dart (Line.ofABC (-1 : ℝ) 0 2) =
    [Vec.ofXY 2 0, Vec.ofXY 2 (2 / 3), ⟨1, 1, true⟩, ⟨0, 4, true⟩, ⟨0, 0, true⟩] := by
  have i1 : (Line.ofABC (-1 : ℝ) 0 2).intersection (Line.ofPoints ⟨0, 0, true⟩ ⟨4, 0, true⟩) = Vec.ofXY 2 0 := by
    rw [Line.intersection_real, EPSILON_real]; norm_num [Line.ofPoints, Line.ofABC]
  have i2 : (Line.ofABC (-1 : ℝ) 0 2).intersection (Line.ofPoints ⟨4, 0, true⟩ ⟨1, 1, true⟩) = Vec.ofXY 2 (2 / 3) := by
    rw [Line.intersection_real, EPSILON_real]; norm_num [Line.ofPoints, Line.ofABC]
  unfold Poly.lineClipped cyclicPairs dart
  simp only [List.cons_append, List.nil_append, List.zip_cons_cons, List.zip_nil_right]
  rw [Poly.clipLoop, if_pos (by norm_num), if_neg (by norm_num)]
  simp only
  rw [i1, if_neg (by simp), Poly.clipLoop, if_neg (by norm_num), if_pos (by norm_num)]
  simp only
  rw [i2, if_neg (by simp), Poly.clipLoop, if_pos (by norm_num), if_pos (by norm_num), Poly.clipLoop, if_pos (by norm_num),
    if_pos (by norm_num), Poly.clipLoop]
  rfl

/-- Non-vacuity of C170: of the area 4 of the dart, 2/3 is right of `x = 2`. -/
example : volume ({z : Pt | (Poly.ofList dart).contains (Vec.ofXY z.1 z.2) true = true} ∩ halfPlane (Line.ofABC (-1 : ℝ) 0 2) 1) =
    ENNReal.ofReal (10 / 3) := by
  have hR : ∀ v : Vec ℝ, decide (v.x ≤ 2) = true ↔ v.pt ∈ halfPlane (Line.ofABC (-1 : ℝ) 0 2) 1 := by
    intro v; simp [halfPlane, Line.ofABC]
  have ok : Poly.ClipOk (fun v => decide (v.x ≤ 2)) dart (Line.ofABC (-1 : ℝ) 0 2) := by
    intro e he hne
    rw [← Bool.not_eq_true, Line.isParallel_iff, EPSILON_real]
    simp only [dart, cyclicPairs, List.cons_append, List.nil_append, List.zip_cons_cons, List.zip_nil_right, List.mem_cons,
      List.not_mem_nil, or_false] at he
    rcases he with rfl | rfl | rfl | rfl
    · norm_num [Line.ofABC, Line.ofPoints]
    · norm_num [Line.ofABC, Line.ofPoints]
    · norm_num at hne
    · norm_num at hne
  have h := (C170_area_partial hR dart ok (by norm_num) (Or.inl (by norm_num [Line.ofABC]))).2 dart_simple true
  rw [h, dart_clip]
  congr 1
  rw [(C72_area _).1, C72_shoelace]
  have : cyclicPairs (Poly.ofList [Vec.ofXY 2 0, Vec.ofXY 2 (2 / 3), ⟨1, 1, true⟩, ⟨0, 4, true⟩, (⟨0, 0, true⟩ : Vec ℝ)]).pts =
    [((2, 0), (2, 2 / 3)), ((2, 2 / 3), (1, 1)), ((1, 1), (0, 4)), ((0, 4), (0, 0)), (((0, 0), (2, 0)) : Pt × Pt)] := rfl
  unfold shoelace
  rw [this]
  norm_num [cross, abs_of_pos]

/-- Non-vacuity of the rectangle case: a triangle reaching over the upper side. -/
example : volume ({z : Pt | (Poly.ofList [Vec.ofXY 1 (-1), Vec.ofXY 3 2, Vec.ofXY (1 : ℝ) 2]).contains (Vec.ofXY z.1 z.2) true = true} ∩
    (Rect.ofLTLW (0 : ℝ) 0 4 4).pts) =
    2⁻¹ * ENNReal.ofReal |((Poly.ofList [Vec.ofXY 1 (-1), Vec.ofXY 3 2, Vec.ofXY (1 : ℝ) 2]).rectClipped
      (Rect.ofLTLW 0 0 4 4)).doubleSignedArea| := by
  set poly : Poly ℝ := Poly.ofList [Vec.ofXY 1 (-1), Vec.ofXY 3 2, Vec.ofXY 1 2] with hpoly
  set r : Rect ℝ := Rect.ofLTLW 0 0 4 4 with hr
  have el : r.left = 0 := rfl
  have et : r.top = 0 := rfl
  have er : r.right = 4 := by simp [hr, Rect.right, Rect.ofLTLW, Rect.left]
  have eb : r.bottom = 4 := by simp [hr, Rect.bottom, Rect.ofLTLW, Rect.top]
  have e1 : cyclicPairs poly.pts = [((1, -1), (3, 2)), ((3, 2), (1, 2)), (((1, 2), (1, -1)) : Pt × Pt)] := rfl
  have mem3 : ∀ v ∈ poly.vertices, v = Vec.ofXY 1 (-1) ∨ v = Vec.ofXY 3 2 ∨ v = Vec.ofXY 1 2 := by
    intro v hv
    simpa [hpoly, Poly.ofList] using hv
  have ok : poly.RectOk r := by
    refine ⟨?_, ?_, ?_⟩
    · intro e he hne
      refine absurd ?_ hne
      have h1 := mem3 _ (fst_mem_of_cyclicPairs he)
      have h2 := mem3 _ (snd_mem_of_cyclicPairs he)
      rw [er]
      rcases h1 with h1 | h1 | h1 <;> rcases h2 with h2 | h2 | h2 <;> rw [h1, h2] <;> norm_num
    · rw [C76_all_inside (fun v => decide (v.x ≤ r.right)) _ poly.vertices (by
        intro v hv
        rw [er]
        rcases mem3 v hv with rfl | rfl | rfl <;> norm_num)]
      intro e he hne
      refine absurd ?_ hne
      have h1 := mem3 _ (List.mem_rotate.mp (List.mem_rotate.mp (fst_mem_of_cyclicPairs he)))
      have h2 := mem3 _ (List.mem_rotate.mp (List.mem_rotate.mp (snd_mem_of_cyclicPairs he)))
      rw [el]
      rcases h1 with h1 | h1 | h1 <;> rcases h2 with h2 | h2 | h2 <;> rw [h1, h2] <;> norm_num
    · rw [C76_all_inside (fun v => decide (v.x ≤ r.right)) _ poly.vertices (by
        intro v hv
        rw [er]
        rcases mem3 v hv with rfl | rfl | rfl <;> norm_num)]
      rw [C76_all_inside (fun v => decide (r.left ≤ v.x)) _ _ (by
        intro v hv
        rw [el]
        rcases mem3 v (List.mem_rotate.mp (List.mem_rotate.mp hv)) with rfl | rfl | rfl <;> norm_num)]
      intro e he hne
      have e3 : ((poly.vertices.rotate 1).rotate 1).rotate 1 = poly.vertices := rfl
      rw [e3] at he
      have hv : cyclicPairs poly.vertices = [(Vec.ofXY 1 (-1), Vec.ofXY 3 2), (Vec.ofXY 3 2, Vec.ofXY 1 2),
        (Vec.ofXY 1 2, Vec.ofXY 1 (-1))] := rfl
      rw [hv] at he
      rw [← Bool.not_eq_true, Line.isParallel_iff, EPSILON_real, et, hline, hline_eq]
      simp only [List.mem_cons, List.not_mem_nil, or_false] at he
      rcases he with rfl | rfl | rfl <;> norm_num [Line.ofPoints]
      rw [et] at hne
      norm_num at hne
  have S : Simple poly.pts := by
    refine ⟨by simp [hpoly, Poly.pts, Poly.ofList], ?_, ?_⟩
    · norm_num [hpoly, Poly.pts, Poly.ofList, Vec.pt]
    · rw [e1]
      intro e he f hf hne z hz hz'
      simp only [List.mem_cons, List.not_mem_nil, or_false] at he hf
      obtain ⟨x, y⟩ := z
      rcases he with rfl | rfl | rfl <;> rcases hf with rfl | rfl | rfl <;>
        first
        | exact absurd rfl hne
        | (obtain ⟨s, s0, s1, h1, h2⟩ := mem_seg.mp hz
           obtain ⟨t, t0, t1, h3, h4⟩ := mem_seg.mp hz'
           simp only at h1 h2 h3 h4
           simp only [Prod.mk.injEq]
           first
           | exact Or.inl ⟨⟨by linarith, by linarith⟩, by linarith, by linarith⟩
           | exact Or.inr ⟨⟨by linarith, by linarith⟩, by linarith, by linarith⟩)
  rw [(C170_rect_area_partial poly (by simp [hpoly, Poly.ofList]) r (by
    intro v hv
    rw [eb]
    rcases mem3 v hv with rfl | rfl | rfl <;> norm_num) ok).2 S true, (C72_area _).1, div_eq_inv_mul,
    ENNReal.ofReal_mul (by norm_num), ENNReal.ofReal_inv_of_pos (by norm_num)]
  norm_num

end PyrusGeom
