import Verif.Props.Winding
import Verif.Props.Triangle
import Verif.Props.Rect
import Verif.Props.Circle
import Verif.Props.Sector
import Mathlib.MeasureTheory.Measure.Lebesgue.Integral
import Mathlib.MeasureTheory.Measure.Lebesgue.VolumeOfBalls
import Mathlib.LinearAlgebra.Matrix.ToLin
import Mathlib.Analysis.SpecialFunctions.PolarCoord

/-! # C169: the areas the code computes are the areas of the sets its membership tests accept -/

namespace PyrusGeom
open Spec Filter Topology MeasureTheory

/-! ## Triangles -/

/-- The linear map with columns `u` and `v`. -/
noncomputable def colMap (u v : Pt) : Pt →ₗ[ℝ] Pt :=
  Matrix.toLin (Module.Basis.finTwoProd ℝ) (Module.Basis.finTwoProd ℝ) !![u.1, v.1; u.2, v.2]

theorem colMap_apply (u v z : Pt) : colMap u v z = z.1 • u + z.2 • v := by
  unfold colMap
  rw [Matrix.toLin_finTwoProd_apply]
  ext <;> simp <;> ring

theorem volume_colMap (a u v : Pt) (s : Set Pt) :
    volume ((fun z => a + colMap u v z) '' s) = ENNReal.ofReal |u.1 * v.2 - v.1 * u.2| * volume s := by
  have : (fun z => a + colMap u v z) '' s = (fun z => a + z) '' (colMap u v '' s) := by
    rw [Set.image_image]
  rw [this, Set.image_add_left, measure_preimage_add, Measure.addHaar_image_linearMap]
  congr 2
  unfold colMap
  rw [LinearMap.det_toLin, Matrix.det_fin_two_of]

theorem volume_segment (a b : Pt) : volume (segment ℝ a b) = 0 := by
  have hs : segment ℝ a b ⊆ (fun z => a + colMap (b - a) (b - a) z) '' Set.univ := by
    intro z hz
    obtain ⟨t, -, -, h1, h2⟩ := mem_seg.mp hz
    refine ⟨(t, 0), trivial, ?_⟩
    simp only [colMap_apply]
    ext
    · simp [h1]
    · simp [h2]
  refine measure_mono_null hs ?_
  rw [volume_colMap]
  rw [show (b - a).1 * (b - a).2 - (b - a).1 * (b - a).2 = 0 by ring]
  simp

theorem volume_outline (l : List Pt) : volume (outline l) = 0 := by
  have : outline l = ⋃ e ∈ {e | e ∈ cyclicPairs l}, segment ℝ e.1 e.2 := by
    ext z; simp [outline]
  rw [this, measure_biUnion_null_iff (List.finite_toSet _).countable]
  intro e _
  exact volume_segment _ _

/-- The open triangle, for a counterclockwise one. -/
def openTri (a b c : Pt) : Set Pt := {z | 0 < area2 a b z ∧ 0 < area2 b c z ∧ 0 < area2 c a z}

theorem volume_unit_triangle : volume {z : Pt | 0 < z.1 ∧ 0 < z.2 ∧ z.1 + z.2 < 1} = ENNReal.ofReal (1 / 2) := by
  have e : {z : Pt | 0 < z.1 ∧ 0 < z.2 ∧ z.1 + z.2 < 1} = regionBetween (fun _ => 0) (fun x => 1 - x) (Set.Ioc (0:ℝ) 1) := by
    ext z
    simp only [regionBetween, Set.mem_ofPred_eq, Set.mem_Ioc, Set.mem_Ioo]
    constructor
    · rintro ⟨h1, h2, h3⟩; exact ⟨⟨h1, by linarith⟩, h2, by linarith⟩
    · rintro ⟨⟨h1, h2⟩, h3, h4⟩; exact ⟨h1, h3, by linarith⟩
  have hint : IntegrableOn (fun x : ℝ => 1 - x) (Set.Ioc 0 1) :=
    ((continuous_const.sub continuous_id).intervalIntegrable 0 1).1
  rw [e]
  change (volume.prod volume) _ = _
  rw [volume_regionBetween_eq_integral (integrableOn_zero) hint measurableSet_Ioc (fun x hx => by simp [hx.2])]
  congr 1
  rw [← intervalIntegral.integral_of_le zero_le_one]
  simp only [Pi.sub_apply, sub_zero]
  rw [intervalIntegral.integral_sub (by simp) (by simp)]
  simp
  norm_num

theorem volume_openTri (a b c : Pt) : volume (openTri a b c) = ENNReal.ofReal (area2 a b c / 2) := by
  rcases le_or_gt (area2 a b c) 0 with h | h
  · have : openTri a b c = ∅ := by
      ext z
      simp only [openTri, Set.mem_ofPred_eq, Set.mem_empty_iff_false, iff_false]
      rintro ⟨h1, h2, h3⟩
      have := area2_sum3 a b c z
      linarith
    rw [this, measure_empty, ENNReal.ofReal_of_nonpos (by linarith)]
  · have e : openTri a b c = (fun z => a + colMap (b - a) (c - a) z) '' {z : Pt | 0 < z.1 ∧ 0 < z.2 ∧ z.1 + z.2 < 1} := by
      ext z
      simp only [openTri, Set.mem_ofPred_eq, Set.mem_image]
      constructor
      · rintro ⟨h1, h2, h3⟩
        have hs := area2_sum3 a b c z
        refine ⟨(area2 c a z / area2 a b c, area2 a b z / area2 a b c), ⟨div_pos h3 h, div_pos h1 h, ?_⟩, ?_⟩
        · rw [← add_div, div_lt_one h]; linarith
        · rw [colMap_apply]
          ext
          · simp only [Prod.fst_add, Prod.smul_fst, smul_eq_mul, Prod.fst_sub]
            field_simp
            unfold area2; ring
          · simp only [Prod.snd_add, Prod.smul_snd, smul_eq_mul, Prod.snd_sub]
            field_simp
            unfold area2; ring
      · rintro ⟨w, ⟨h1, h2, h3⟩, rfl⟩
        rw [colMap_apply]
        have e1 : area2 a b (a + (w.1 • (b - a) + w.2 • (c - a))) = w.2 * area2 a b c := by
          unfold area2; simp; ring
        have e2 : area2 c a (a + (w.1 • (b - a) + w.2 • (c - a))) = w.1 * area2 a b c := by
          unfold area2; simp; ring
        have e3 : area2 b c (a + (w.1 • (b - a) + w.2 • (c - a))) = (1 - w.1 - w.2) * area2 a b c := by
          unfold area2; simp; ring
        rw [e1, e2, e3]
        exact ⟨mul_pos h2 h, mul_pos (by linarith) h, mul_pos h1 h⟩
    rw [e, volume_colMap, volume_unit_triangle, ← ENNReal.ofReal_mul (abs_nonneg _)]
    congr 1
    have : (b - a).1 * (c - a).2 - (c - a).1 * (b - a).2 = area2 a b c := by unfold area2; simp; ring
    rw [this, abs_of_pos h]; ring

theorem isOpen_openTri (a b c : Pt) : IsOpen (openTri a b c) :=
  (isOpen_lt continuous_const (continuous_area2 a b)).inter
    ((isOpen_lt continuous_const (continuous_area2 b c)).inter (isOpen_lt continuous_const (continuous_area2 c a)))

theorem triSign_eq (a b c z : Pt) : (triSign a b c z : ℝ) =
    (openTri a b c).indicator (fun _ => (1 : ℝ)) z - (openTri b a c).indicator (fun _ => (1 : ℝ)) z := by
  classical
  have e : z ∈ openTri b a c ↔ area2 a b z < 0 ∧ area2 b c z < 0 ∧ area2 c a z < 0 := by
    simp only [openTri, Set.mem_ofPred_eq]
    rw [area2_swap a b, area2_swap c a, area2_swap b c]
    constructor
    · rintro ⟨h1, h2, h3⟩; exact ⟨by linarith, by linarith, by linarith⟩
    · rintro ⟨h1, h2, h3⟩; exact ⟨by linarith, by linarith, by linarith⟩
  simp only [Set.indicator_apply]
  rw [if_congr e rfl rfl]
  unfold triSign
  by_cases h1 : 0 < area2 a b z ∧ 0 < area2 b c z ∧ 0 < area2 c a z
  · rw [if_pos h1, if_pos (show z ∈ openTri a b c from h1), if_neg (fun h => absurd h.1 (not_lt.mpr h1.1.le))]; simp
  · rw [if_neg h1, if_neg (show z ∉ openTri a b c from h1)]
    split_ifs <;> simp

theorem integrable_openTri (a b c : Pt) : Integrable ((openTri a b c).indicator (fun _ => (1 : ℝ))) := by
  rw [integrable_indicator_iff (isOpen_openTri a b c).measurableSet]
  refine integrableOn_const ?_
  rw [volume_openTri]; exact ENNReal.ofReal_ne_top

theorem integral_openTri (a b c : Pt) : ∫ z, (openTri a b c).indicator (fun _ => (1 : ℝ)) z = max (area2 a b c / 2) 0 := by
  rw [integral_indicator (isOpen_openTri a b c).measurableSet, setIntegral_const, Measure.real, volume_openTri,
    ENNReal.toReal_ofReal', smul_eq_mul, mul_one]

theorem integrable_triSign (a b c : Pt) : Integrable (fun z => (triSign a b c z : ℝ)) := by
  simp only [triSign_eq]
  exact (integrable_openTri a b c).sub (integrable_openTri b a c)

theorem integral_triSign (a b c : Pt) : ∫ z, (triSign a b c z : ℝ) = area2 a b c / 2 := by
  simp only [triSign_eq]
  rw [integral_sub (integrable_openTri a b c) (integrable_openTri b a c), integral_openTri, integral_openTri]
  have : area2 b a c = -area2 a b c := area2_swap a b c
  rw [this]
  rcases le_total 0 (area2 a b c) with h | h
  · rw [max_eq_left (by linarith), max_eq_right (by linarith)]; ring
  · rw [max_eq_right (by linarith), max_eq_left (by linarith)]; ring

/-! ## Polygons -/

theorem winding_ae (l : List Pt) : (fun z => (winding l z : ℝ)) =ᵐ[volume]
    fun z => ((cyclicPairs l).map fun e => (triSign 0 e.1 e.2 z : ℝ)).sum := by
  have h1 : ∀ᵐ z : Pt, z ∉ outline l := measure_eq_zero_iff_ae_notMem.mp (volume_outline l)
  have h2 : ∀ᵐ z : Pt, ∀ v ∈ {v | v ∈ l}, z ∉ segment ℝ 0 v := by
    rw [ae_ball_iff (List.finite_toSet l).countable]
    intro v _
    exact measure_eq_zero_iff_ae_notMem.mp (volume_segment 0 v)
  filter_upwards [h1, h2] with z hz1 hz2
  rw [winding_fan l 0 z hz1 hz2]
  push_cast
  rw [List.map_map]; rfl

theorem sum_triSign (L : List (Pt × Pt)) : Integrable (fun z => (L.map fun e => (triSign 0 e.1 e.2 z : ℝ)).sum) ∧
    ∫ z, (L.map fun e => (triSign 0 e.1 e.2 z : ℝ)).sum = (L.map fun e => area2 0 e.1 e.2 / 2).sum := by
  induction L with
  | nil => simp
  | cons e L ih =>
    simp only [List.map_cons, List.sum_cons]
    exact ⟨(integrable_triSign _ _ _).add ih.1, by rw [integral_add (integrable_triSign _ _ _) ih.1, integral_triSign, ih.2]⟩

theorem integrable_winding (l : List Pt) : Integrable (fun z => (winding l z : ℝ)) :=
  (sum_triSign _).1.congr (winding_ae l).symm

theorem integral_winding (l : List Pt) : ∫ z, (winding l z : ℝ) = shoelace l / 2 := by
  rw [integral_congr_ae (winding_ae l), (sum_triSign _).2]
  unfold shoelace
  induction cyclicPairs l with
  | nil => simp
  | cons e L ih =>
    simp only [List.map_cons, List.sum_cons, ih]
    unfold area2 cross
    simp
    ring

/-- **C169** For every polygon, simple or not, the doubled signed area the code computes is twice the area weighted with the winding
number. -/
theorem C169_winding (poly : Poly ℝ) : poly.doubleSignedArea = 2 * ∫ z, (winding poly.pts z : ℝ) := by
  rw [C72_shoelace, integral_winding]; ring

theorem Spec.Simple.left_right {l : List Pt} (S : Simple l) {c : ℤ}
    (hv : ∀ z, z ∉ outline l → winding l z = c ∨ winding l z = c + 1) {e : Pt × Pt} (he : e ∈ cyclicPairs l) {q : Pt}
    (hq : q ∈ segment ℝ e.1 e.2) (hq1 : q ≠ e.1) (hq2 : q ≠ e.2) :
    ∀ᶠ z in 𝓝 q, (0 < area2 e.1 e.2 z → z ∉ outline l ∧ winding l z = c + 1) ∧
      (area2 e.1 e.2 z < 0 → z ∉ outline l ∧ winding l z = c) := by
  obtain ⟨n, t, hn⟩ := rotate_edge he (by have := S.three; omega)
  have S' := S.rotate n
  have ho := outline_rotate l n
  have hw := winding_rotate l n
  rw [hn] at S' ho hw
  obtain ⟨u, w⟩ := e
  simp only at *
  have hr : ∀ f ∈ chainPairs (w :: (t ++ [u])), q ∉ segment ℝ f.1 f.2 := by
    intro f hf hm
    have hf1 : f.1 ∈ w :: t := by
      rw [← chain_fst (w := w) (u := u) (t := t)]
      exact List.mem_map_of_mem hf
    have hne : (u, w) ≠ f := by
      rintro rfl
      exact (List.nodup_cons.mp S'.nodup).1 hf1
    rcases S'.meet (u, w) (by rw [pairs_two]; simp) f (by rw [pairs_two]; simp [hf]) hne q hq hm with h | h
    · exact hq2 h.1
    · exact hq1 h.1
  obtain ⟨d, -, h2, h3⟩ := edge_sides hq hq1 hq2 hr
  rw [ho] at h2 h3
  simp only [hw] at h2 h3
  have hd : d = c := by
    have hp := sumsq_pos (S.edge_ne he)
    have h0 := area2_of_mem hq
    simp only at hp
    have a1 : ∀ᶠ ε : ℝ in 𝓝[>] 0, q + ε • leftDir u w ∉ outline l ∧ winding l (q + ε • leftDir u w) = d + 1 := by
      filter_upwards [(tendsto_dir q (leftDir u w)).eventually h2, self_mem_nhdsWithin] with ε k hpos
      apply k
      rw [area2_leftDir, h0]
      have : (0 : ℝ) < ε := hpos
      have := mul_pos this hp
      linarith
    have a2 : ∀ᶠ ε : ℝ in 𝓝[>] 0, q + ε • -leftDir u w ∉ outline l ∧ winding l (q + ε • -leftDir u w) = d := by
      filter_upwards [(tendsto_dir q (-leftDir u w)).eventually h3, self_mem_nhdsWithin] with ε k hpos
      apply k
      rw [smul_neg, ← neg_smul, area2_leftDir, h0]
      have : (0 : ℝ) < ε := hpos
      have := mul_pos this hp
      linarith
    obtain ⟨ε, b1, b2⟩ := (a1.and a2).exists
    have c1 := hv _ b1.1
    have c2 := hv _ b2.1
    rw [b1.2] at c1
    rw [b2.2] at c2
    omega
  rw [hd] at h2 h3
  exact h2.and h3

/-- The winding number of a simple polygon, up to a null set. -/
theorem Spec.Simple.region {poly : Poly ℝ} (S : Simple poly.pts) : ∃ (c : ℤ) (I : Set Pt), (c = 0 ∨ c = -1) ∧
    (∀ z, z ∉ outline poly.pts → winding poly.pts z = c ∨ winding poly.pts z = c + 1) ∧ IsOpen I ∧ I.Nonempty ∧ volume I ≠ ⊤ ∧
    (∀ allow, {z : Pt | poly.contains (Vec.ofXY z.1 z.2) allow = true} =ᵐ[volume] I) ∧
    (fun z => (winding poly.pts z : ℝ)) =ᵐ[volume] I.indicator (fun _ => (2 * c + 1 : ℝ)) := by
  obtain ⟨c, hc, hn, hv⟩ := simple_winding S
  obtain ⟨⟨hi1, hi2, -⟩, -, hb, -⟩ := C168_two_sides poly S true
  set I := {z : Pt | z ∉ outline poly.pts ∧ poly.contains (Vec.ofXY z.1 z.2) true = true} with hI
  have hmem : ∀ z, z ∉ outline poly.pts → ∀ allow, (poly.contains (Vec.ofXY z.1 z.2) allow = true ↔ z ∈ I) := by
    intro z hz allow
    rw [S.contains_iff (Vec.ofXY z.1 z.2) hz allow, ← S.contains_iff (Vec.ofXY z.1 z.2) hz true]
    exact ⟨fun h => ⟨hz, h⟩, fun h => h.2⟩
  have hoff : ∀ᵐ z : Pt, z ∉ outline poly.pts := measure_eq_zero_iff_ae_notMem.mp (volume_outline _)
  refine ⟨c, I, hc, hv, hi2, hi1.nonempty, hb.measure_lt_top.ne, fun allow => ?_, ?_⟩
  · filter_upwards [hoff] with z hz
    exact propext (hmem z hz allow)
  · classical
    filter_upwards [hoff] with z hz
    rw [Set.indicator_apply]
    have h1 := S.contains_iff (Vec.ofXY z.1 z.2) hz true
    rw [hmem z hz true] at h1
    change _ ↔ winding poly.pts z ≠ 0 at h1
    have h2 := hv z hz
    by_cases hz : z ∈ I
    · rw [if_pos hz]
      have : winding poly.pts z = 2 * c + 1 := by have := h1.mp hz; omega
      rw [this]; push_cast; ring
    · rw [if_neg hz]
      have : winding poly.pts z = 0 := by
        by_contra h0
        exact hz (h1.mpr h0)
      rw [this]; norm_num

/-- The area of a simple polygon with winding numbers `c` and `c + 1`. -/
theorem Spec.Simple.area {poly : Poly ℝ} (S : Simple poly.pts) : ∃ c : ℤ, (c = 0 ∨ c = -1) ∧
    (∀ z, z ∉ outline poly.pts → winding poly.pts z = c ∨ winding poly.pts z = c + 1) ∧ 0 < poly.area ∧
    poly.doubleSignedArea = (2 * c + 1) * (2 * poly.area) ∧
    ∀ allow, volume {z : Pt | poly.contains (Vec.ofXY z.1 z.2) allow = true} = ENNReal.ofReal poly.area := by
  obtain ⟨c, I, hc, hv, hi2, hne, hfin, hae, hw⟩ := S.region
  have hpos : 0 < volume.real I := ENNReal.toReal_pos (hi2.measure_pos _ hne).ne' hfin
  have hint : ∫ z, (winding poly.pts z : ℝ) = (2 * c + 1) * volume.real I := by
    rw [integral_congr_ae hw, integral_indicator hi2.measurableSet, setIntegral_const, smul_eq_mul, mul_comm]
  have hds : poly.doubleSignedArea = (2 * c + 1) * (2 * volume.real I) := by rw [C169_winding, hint]; ring
  have harea : poly.area = volume.real I := by
    rw [(C72_area poly).1, hds]
    rcases hc with rfl | rfl
    · rw [abs_of_pos (by push_cast; linarith)]; push_cast; ring
    · rw [abs_of_neg (by push_cast; linarith)]; push_cast; ring
  refine ⟨c, hc, hv, by rw [harea]; exact hpos, by rw [hds, harea], fun allow => ?_⟩
  rw [measure_congr (hae allow), harea, Measure.real, ENNReal.ofReal_toReal hfin]

/-- If the winding number of a second polygon is that of the first inside `R` and 0 outside, its area is that of the part in `R`. -/
theorem area_of_winding {poly poly' : Poly ℝ} {R : Set Pt} (hR : MeasurableSet R)
    (h : (fun z => (winding poly'.pts z : ℝ)) =ᵐ[volume] R.indicator fun z => (winding poly.pts z : ℝ)) :
    poly'.doubleSignedArea = 2 * ∫ z in R, (winding poly.pts z : ℝ) ∧
    (Simple poly.pts → ∀ allow, volume ({z : Pt | poly.contains (Vec.ofXY z.1 z.2) allow = true} ∩ R) = ENNReal.ofReal poly'.area) := by
  have h1 : poly'.doubleSignedArea = 2 * ∫ z in R, (winding poly.pts z : ℝ) := by
    rw [C169_winding, integral_congr_ae h, integral_indicator hR]
  refine ⟨h1, fun S allow => ?_⟩
  obtain ⟨c, I, hc, -, hi2, -, hfin, hae, hw⟩ := S.region
  have hfin' : volume (I ∩ R) ≠ ⊤ := ((measure_mono Set.inter_subset_left).trans_lt (lt_top_iff_ne_top.mpr hfin)).ne
  have hint : ∫ z in R, (winding poly.pts z : ℝ) = (2 * c + 1) * volume.real (I ∩ R) := by
    rw [integral_congr_ae (ae_restrict_of_ae hw), integral_indicator hi2.measurableSet, setIntegral_const, smul_eq_mul, mul_comm,
      Measure.real, Measure.restrict_apply hi2.measurableSet]
    rfl
  have hae' : ({z : Pt | poly.contains (Vec.ofXY z.1 z.2) allow = true} ∩ R : Set Pt) =ᵐ[volume] (I ∩ R : Set Pt) := by
    filter_upwards [hae allow] with z hz
    exact propext (and_congr_left fun _ => iff_of_eq hz)
  have hnn : 0 ≤ volume.real (I ∩ R) := ENNReal.toReal_nonneg
  have harea : poly'.area = volume.real (I ∩ R) := by
    rw [(C72_area poly').1, h1, hint]
    rcases hc with rfl | rfl
    · rw [abs_of_nonneg (by push_cast; linarith)]; push_cast; ring
    · rw [abs_of_nonpos (by push_cast; linarith)]; push_cast; ring
  rw [measure_congr hae', harea, Measure.real, ENNReal.ofReal_toReal hfin']

/-- **C169** The area of a simple polygon is the Lebesgue measure of the set of points it contains, and it is positive. -/
theorem C169_polygon (poly : Poly ℝ) (S : Simple poly.pts) (allow : Bool) :
    volume {z : Pt | poly.contains (Vec.ofXY z.1 z.2) allow = true} = ENNReal.ofReal poly.area ∧ 0 < poly.area := by
  obtain ⟨c, -, -, h1, -, h2⟩ := S.area
  exact ⟨h2 allow, h1⟩

/-- **C169** A simple polygon is counterclockwise or clockwise, not both. In the first case, at each inner point of each edge the points on
the left of the edge are contained and those on the right are not, in the second case the other way round. -/
theorem C169_orientation (poly : Poly ℝ) (S : Simple poly.pts) (allow : Bool) :
    let side (σ : ℝ) := ∀ e ∈ cyclicPairs poly.pts, ∀ q ∈ segment ℝ e.1 e.2, q ≠ e.1 → q ≠ e.2 → ∀ᶠ z in 𝓝 q,
      (0 < σ * area2 e.1 e.2 z → poly.contains (Vec.ofXY z.1 z.2) allow = true) ∧
      (σ * area2 e.1 e.2 z < 0 → poly.contains (Vec.ofXY z.1 z.2) allow = false)
    (poly.isCounterClockwise = true ∧ poly.isClockwise = false ∧ side 1) ∨
    (poly.isCounterClockwise = false ∧ poly.isClockwise = true ∧ side (-1)) := by
  intro side
  obtain ⟨c, hc, hv, h1, h2, -⟩ := S.area
  obtain ⟨-, k1, k2, -⟩ := C72_area poly
  have hin : ∀ z, z ∉ outline poly.pts → (poly.contains (Vec.ofXY z.1 z.2) allow = true ↔ winding poly.pts z ≠ 0) :=
    fun z hz => S.contains_iff (Vec.ofXY z.1 z.2) hz allow
  have hside : side (2 * c + 1) := by
    intro e he q hq hq1 hq2
    filter_upwards [S.left_right hv he hq hq1 hq2] with z hz
    rcases hc with rfl | rfl
    · push_cast
      constructor
      · intro h
        obtain ⟨z1, z2⟩ := hz.1 (by linarith)
        rw [hin z z1, z2]; decide
      · intro h
        obtain ⟨z1, z2⟩ := hz.2 (by linarith)
        rw [← Bool.not_eq_true, hin z z1, z2]; decide
    · push_cast
      constructor
      · intro h
        obtain ⟨z1, z2⟩ := hz.2 (by linarith)
        rw [hin z z1, z2]; decide
      · intro h
        obtain ⟨z1, z2⟩ := hz.1 (by linarith)
        rw [← Bool.not_eq_true, hin z z1, z2]; decide
  rcases hc with rfl | rfl
  · left
    refine ⟨k1.mpr (by rw [h2]; push_cast; linarith), ?_, by simpa using hside⟩
    rw [← Bool.not_eq_true, k2, h2]; push_cast; linarith
  · right
    refine ⟨?_, k2.mpr (by rw [h2]; push_cast; linarith), ?_⟩
    · rw [← Bool.not_eq_true, k1, h2]; push_cast; linarith
    · have : (2 * ((-1 : ℤ) : ℝ) + 1) = -1 := by norm_num
      rwa [this] at hside

/-- Non-vacuity: the dart covers area 4. -/
example : volume {z : Pt | (Poly.ofList dart).contains (Vec.ofXY z.1 z.2) true = true} = 4 := by
  rw [(C169_polygon _ dart_simple true).1]
  have : (Poly.ofList dart).area = 4 := by
    rw [(C72_area _).1, C72_shoelace]
    norm_num [shoelace, Poly.pts, Poly.ofList, dart, cyclicPairs, cross, Vec.pt]
  rw [this]; norm_num

/-! ## Triangles, rectangles, circles, sectors -/

theorem volume_line {a b : Pt} (h : a ≠ b) : volume {z : Pt | area2 a b z = 0} = 0 := by
  have hp := sumsq_pos h
  have hs : {z : Pt | area2 a b z = 0} ⊆ (fun z => a + colMap (b - a) (b - a) z) '' Set.univ := by
    intro z hz
    simp only [Set.mem_ofPred_eq] at hz
    refine ⟨(((z.1 - a.1) * (b.1 - a.1) + (z.2 - a.2) * (b.2 - a.2)) / ((b.1 - a.1) ^ 2 + (b.2 - a.2) ^ 2), 0), trivial, ?_⟩
    simp only [colMap_apply]
    unfold area2 at hz
    ext
    · simp only [Prod.fst_add, Prod.smul_fst, smul_eq_mul, Prod.fst_sub]
      field_simp
      linear_combination (b.2 - a.2) * hz
    · simp only [Prod.snd_add, Prod.smul_snd, smul_eq_mul, Prod.snd_sub]
      field_simp
      linear_combination -(b.1 - a.1) * hz
  refine measure_mono_null hs ?_
  rw [volume_colMap, show (b - a).1 * (b - a).2 - (b - a).1 * (b - a).2 = 0 by ring]
  simp

theorem volume_closedTri {a b c : Pt} (h : ¬ (a = b ∧ b = c)) :
    volume {z : Pt | (0 ≤ area2 a b z ∧ 0 ≤ area2 b c z ∧ 0 ≤ area2 c a z) ∨ (area2 a b z ≤ 0 ∧ area2 b c z ≤ 0 ∧ area2 c a z ≤ 0)} =
      ENNReal.ofReal (|area2 a b c| / 2) := by
  have null : ∀ u v : Pt, u ≠ v → ∀ᵐ z : Pt, area2 u v z ≠ 0 := fun u v huv =>
    measure_eq_zero_iff_ae_notMem.mp (volume_line huv)
  have hs := fun z => area2_sum3 a b c z
  by_cases h0 : area2 a b c = 0
  · rw [h0]
    simp only [abs_zero, zero_div, ENNReal.ofReal_zero]
    have : ∃ u v : Pt, u ≠ v ∧ ∀ z, area2 u v z ≠ 0 →
        ¬ ((0 ≤ area2 a b z ∧ 0 ≤ area2 b c z ∧ 0 ≤ area2 c a z) ∨ (area2 a b z ≤ 0 ∧ area2 b c z ≤ 0 ∧ area2 c a z ≤ 0)) := by
      by_cases hab : a = b
      · refine ⟨b, c, fun k => h ⟨hab, k⟩, fun z hz => ?_⟩
        rintro (⟨h1, h2, h3⟩ | ⟨h1, h2, h3⟩) <;> exact hz (by linarith [hs z])
      · refine ⟨a, b, hab, fun z hz => ?_⟩
        rintro (⟨h1, h2, h3⟩ | ⟨h1, h2, h3⟩) <;> exact hz (by linarith [hs z])
    obtain ⟨u, v, huv, hn⟩ := this
    rw [measure_eq_zero_iff_ae_notMem]
    filter_upwards [null u v huv] with z hz
    exact hn z hz
  · have ab : a ≠ b := by rintro rfl; exact h0 (by unfold area2; ring)
    have bc : b ≠ c := by rintro rfl; exact h0 (by unfold area2; ring)
    have ca : c ≠ a := by rintro rfl; exact h0 (by unfold area2; ring)
    rcases lt_or_gt_of_ne h0 with hlt | hgt
    · rw [abs_of_neg hlt, ← area2_swap, ← volume_openTri]
      apply measure_congr
      filter_upwards [null a b ab, null b c bc, null c a ca] with z h1 h2 h3
      apply propext
      change (_ ∨ _) ↔ (0 < area2 b a z ∧ 0 < area2 a c z ∧ 0 < area2 c b z)
      rw [area2_swap a b, area2_swap c a, area2_swap b c]
      constructor
      · rintro (⟨k1, k2, k3⟩ | ⟨k1, k2, k3⟩)
        · linarith [hs z]
        · exact ⟨neg_pos.mpr (lt_of_le_of_ne k1 h1), neg_pos.mpr (lt_of_le_of_ne k3 h3), neg_pos.mpr (lt_of_le_of_ne k2 h2)⟩
      · rintro ⟨k1, k2, k3⟩
        exact Or.inr ⟨by linarith, by linarith, by linarith⟩
    · rw [abs_of_pos hgt, ← volume_openTri]
      apply measure_congr
      filter_upwards [null a b ab, null b c bc, null c a ca] with z h1 h2 h3
      apply propext
      change (_ ∨ _) ↔ (0 < area2 a b z ∧ 0 < area2 b c z ∧ 0 < area2 c a z)
      constructor
      · rintro (⟨k1, k2, k3⟩ | ⟨k1, k2, k3⟩)
        · exact ⟨lt_of_le_of_ne k1 h1.symm, lt_of_le_of_ne k2 h2.symm, lt_of_le_of_ne k3 h3.symm⟩
        · linarith [hs z]
      · rintro ⟨k1, k2, k3⟩
        exact Or.inl ⟨k1.le, k2.le, k3.le⟩

theorem Tri.contains_area2 (a b c : Vec ℝ) (z : Pt) : (Tri.ofPoints a b c).contains (Vec.ofXY z.1 z.2) = true ↔
    (0 ≤ area2 a.pt b.pt z ∧ 0 ≤ area2 b.pt c.pt z ∧ 0 ≤ area2 c.pt a.pt z) ∨
    (area2 a.pt b.pt z ≤ 0 ∧ area2 b.pt c.pt z ≤ 0 ∧ area2 c.pt a.pt z ≤ 0) := by
  have r : ∀ u v : Pt, area2 z u v = area2 u v z := fun u v => by unfold area2; ring
  refine (Tri.triContains_iff a b c (Vec.ofXY z.1 z.2)).trans ?_
  simp only [Vec.pt_ofXY, Prod.mk.eta, r]

theorem Tri.area_area2 (a b c : Vec ℝ) : (Tri.ofPoints a b c).area = |area2 a.pt b.pt c.pt| / 2 := by
  obtain ⟨-, -, -, -, -, -, -, -, h, -⟩ := C41_signed_area a b c a
  rw [h, Tri.dsa_real]

/-- **C169** The area of a triangle is the measure of the set of points it contains, unless the three vertices coincide. -/
theorem C169_triangle_partial (a b c : Vec ℝ) (h : ¬ (a.pt = b.pt ∧ b.pt = c.pt)) :
    volume {z : Pt | (Tri.ofPoints a b c).contains (Vec.ofXY z.1 z.2) = true} = ENNReal.ofReal (Tri.ofPoints a b c).area := by
  rw [Tri.area_area2]
  simp only [Tri.contains_area2]
  exact volume_closedTri h

/-- **C169** for three equal vertices is false: the area is 0 and every point is contained. -/
theorem C169_refuted_triangle : ∃ a b c : Vec ℝ, (Tri.ofPoints a b c).area = 0 ∧
    volume {z : Pt | (Tri.ofPoints a b c).contains (Vec.ofXY z.1 z.2) = true} = ⊤ := by
  refine ⟨Vec.ofXY 0 0, Vec.ofXY 0 0, Vec.ofXY 0 0, ?_, ?_⟩
  · rw [Tri.area_area2]; simp [area2]
  · have : {z : Pt | (Tri.ofPoints (Vec.ofXY (0:ℝ) 0) (Vec.ofXY 0 0) (Vec.ofXY 0 0)).contains (Vec.ofXY z.1 z.2) = true} = Set.univ := by
      ext z
      simp [Tri.contains_area2, area2]
    rw [this]
    exact measure_univ_of_isAddLeftInvariant _

/-- **C169** The area of a rectangle is the measure of the set of points it contains. -/
theorem C169_rect (r : Rect ℝ) (hr : r.Ok) :
    volume {z : Pt | r.contains (Vec.ofXY z.1 z.2) = true} = ENNReal.ofReal r.area := by
  have e : {z : Pt | r.contains (Vec.ofXY z.1 z.2) = true} = Set.Icc r.left r.right ×ˢ Set.Icc r.top r.bottom := by
    ext z
    simp only [Rect.contains, Bool.and_eq_true, decide_eq_true_eq, Set.mem_ofPred_eq, Set.mem_prod, Set.mem_Icc, and_assoc]
    rfl
  rw [e, Measure.volume_eq_prod, Measure.prod_prod, Real.volume_Icc, Real.volume_Icc,
    ← ENNReal.ofReal_mul (by simp only [Rect.right]; linarith [hr.1])]
  congr 1
  simp only [Rect.area, Rect.right, Rect.bottom]; ring

/-- **C169** The area of a circle is the measure of the set of points it contains. -/
theorem C169_circle (c : Circle ℝ) :
    volume {z : Pt | c.contains (Vec.ofXY z.1 z.2) = true} = ENNReal.ofReal c.area := by
  have hs : IsOpen {z : Pt | c.contains (Vec.ofXY z.1 z.2) = true} := by
    simp only [Circle.contains, decide_eq_true_eq, Vec.dist2_real]
    exact isOpen_lt (by simp only [Vec.ofXY]; fun_prop) continuous_const
  rw [← Complex.volume_preserving_equiv_real_prod.measure_preimage hs.measurableSet.nullMeasurableSet]
  have e : Complex.measurableEquivRealProd ⁻¹' {z : Pt | c.contains (Vec.ofXY z.1 z.2) = true} =
      Metric.ball (⟨c.center.x, c.center.y⟩ : ℂ) |c.radius| := by
    ext w
    simp only [Set.mem_preimage, Set.mem_ofPred_eq, Circle.contains, decide_eq_true_eq, Vec.dist2_real, Metric.mem_ball,
      Complex.dist_eq]
    rw [← sq_lt_sq₀ (norm_nonneg _) (abs_nonneg _), ← Complex.normSq_eq_norm_sq, Complex.normSq_apply, sq_abs, pow_two c.radius]
    simp [Vec.ofXY, Complex.measurableEquivRealProd_apply]
    constructor <;> intro h <;> nlinarith
  rw [e, Complex.volume_ball, ← ENNReal.ofReal_pow (abs_nonneg _), sq_abs, ← ENNReal.ofReal_coe_nnreal,
    ← ENNReal.ofReal_mul (by positivity)]
  congr 1
  simp only [Circle.area, PyMath.pi, NNReal.coe_real_pi]; ring

/-- A rectangle of size 3 by 2 at `(1, 1)`, a circle of radius 2 and a clockwise triangle. -/
example : volume {z : Pt | (Rect.ofPointSize (Vec.ofXY (1:ℝ) 1) (Size.ofLW 3 2)).contains (Vec.ofXY z.1 z.2) = true} = 6 ∧
    volume {z : Pt | (Circle.ofCR (Vec.ofXY (1:ℝ) 1) 2).contains (Vec.ofXY z.1 z.2) = true} = ENNReal.ofReal (4 * Real.pi) ∧
    volume {z : Pt | (Tri.ofPoints (Vec.ofXY (0:ℝ) 0) (Vec.ofXY 0 3) (Vec.ofXY 4 0)).contains (Vec.ofXY z.1 z.2) = true} = 6 := by
  refine ⟨?_, ?_, ?_⟩
  · rw [C169_rect _ (by simp [Rect.Ok, Rect.ofPointSize, Size.ofLW, fabs_real])]
    norm_num [Rect.area, Rect.ofPointSize, Size.ofLW, fabs_real]
  · rw [C169_circle]
    congr 1
    norm_num [Circle.area, Circle.ofCR, PyMath.pi]
    ring
  · rw [C169_triangle_partial _ _ _ (by norm_num), Tri.area_area2]
    norm_num [area2]

/-- The directions between -π and π on the clockwise arc from `s` to `e`. -/
def arcAngles (s e : ℝ) : Set ℝ := {θ | θ ∈ Set.Ioo (-Real.pi) Real.pi ∧ InArc s e (θ * (180 / Real.pi))}

theorem inArc_iff {s e t x : ℝ} (ht : CwTurn s e t) : InArc s e x ↔ ∃ k : ℤ, s ≤ x + 360 * k ∧ x + 360 * k ≤ s + t := by
  constructor
  · rintro ⟨u, v, ⟨u0, u1, k, hk⟩, hv, huv⟩
    rw [hv.unique ht] at huv
    exact ⟨k, by linarith, by linarith⟩
  · rintro ⟨k, h1, h2⟩
    exact ⟨x + 360 * k - s, t, ⟨by linarith, by linarith [ht.2.1], k, by linarith⟩, ht, by linarith⟩

theorem volume_arcAngles {s e t : ℝ} (ht : CwTurn s e t) :
    MeasurableSet (arcAngles s e) ∧ volume (arcAngles s e) = ENNReal.ofReal (t * (Real.pi / 180)) := by
  have hpi := Real.pi_pos
  obtain ⟨t0, t1, -⟩ := id ht
  -- normalise the start
  obtain ⟨m, hm1, hm2⟩ : ∃ m : ℤ, -180 < s + 360 * m ∧ s + 360 * m ≤ 180 := by
    refine ⟨⌊(180 - s) / 360⌋, ?_, ?_⟩
    · have := Int.lt_floor_add_one ((180 - s) / 360)
      linarith
    · have := Int.floor_le ((180 - s) / 360)
      linarith
  set σ := s + 360 * m with hσ
  have hmem : ∀ θ : ℝ, θ ∈ arcAngles s e ↔ (-Real.pi < θ ∧ θ < Real.pi) ∧
      ((σ * (Real.pi / 180) ≤ θ ∧ θ ≤ (σ + t) * (Real.pi / 180)) ∨ θ ≤ (σ + t - 360) * (Real.pi / 180)) := by
    intro θ
    refine and_congr_right fun hθ => ?_
    rw [inArc_iff ht]
    obtain ⟨x, rfl⟩ : ∃ x, θ = x * (Real.pi / 180) := ⟨θ * (180 / Real.pi), by field_simp⟩
    have ex : x * (Real.pi / 180) * (180 / Real.pi) = x := by field_simp
    rw [ex]
    have hp : 0 < Real.pi / 180 := by positivity
    have x1 : -180 < x := by
      by_contra hc
      have := mul_le_mul_of_nonneg_right (not_lt.mp hc) hp.le
      have h1 := hθ.1
      have : -180 * (Real.pi / 180) = -Real.pi := by ring
      linarith
    have x2 : x < 180 := by
      by_contra hc
      have := mul_le_mul_of_nonneg_right (not_lt.mp hc) hp.le
      have h1 := hθ.2
      have : 180 * (Real.pi / 180) = Real.pi := by ring
      linarith
    simp only [mul_le_mul_iff_left₀ hp]
    constructor
    · rintro ⟨k, k1, k2⟩
      have l1 : σ ≤ x + 360 * ((k + m : ℤ) : ℝ) := by push_cast; linarith
      have l2 : x + 360 * ((k + m : ℤ) : ℝ) ≤ σ + t := by push_cast; linarith
      generalize k + m = j at l1 l2
      have j0 : -1 < j := by
        have : (-1 : ℝ) < j := by linarith
        exact_mod_cast this
      have j1 : j < 2 := by
        have : (j : ℝ) < 2 := by linarith
        exact_mod_cast this
      obtain rfl | rfl : j = 0 ∨ j = 1 := by omega
      · left; push_cast at l1 l2; exact ⟨by linarith, by linarith⟩
      · right; push_cast at l1 l2; linarith
    · rintro (⟨l1, l2⟩ | l)
      · exact ⟨-m, by push_cast; linarith, by push_cast; linarith⟩
      · exact ⟨1 - m, by push_cast; linarith, by push_cast; linarith⟩
  have a1 : -Real.pi < σ * (Real.pi / 180) := by
    have : (-180) * (Real.pi / 180) < σ * (Real.pi / 180) := mul_lt_mul_of_pos_right hm1 (by positivity)
    linarith
  have a2 : σ * (Real.pi / 180) ≤ Real.pi := by
    have : σ * (Real.pi / 180) ≤ 180 * (Real.pi / 180) := mul_le_mul_of_nonneg_right hm2 (by positivity)
    linarith
  rcases lt_or_ge (σ + t) 180 with h | h
  · have a3 : (σ + t) * (Real.pi / 180) < 180 * (Real.pi / 180) := mul_lt_mul_of_pos_right h (by positivity)
    have e : arcAngles s e = Set.Icc (σ * (Real.pi / 180)) ((σ + t) * (Real.pi / 180)) := by
      ext θ
      rw [hmem, Set.mem_Icc]
      constructor
      · rintro ⟨⟨h1, h2⟩, h3 | h3⟩
        · exact h3
        · exfalso
          have : (σ + t - 360) * (Real.pi / 180) = (σ + t) * (Real.pi / 180) - 2 * Real.pi := by ring
          linarith
      · rintro ⟨h1, h2⟩
        exact ⟨⟨by linarith, by linarith⟩, Or.inl ⟨h1, h2⟩⟩
    rw [e, Real.volume_Icc]
    exact ⟨measurableSet_Icc, by congr 1; ring⟩
  · have a3 : 180 * (Real.pi / 180) ≤ (σ + t) * (Real.pi / 180) := mul_le_mul_of_nonneg_right h (by positivity)
    have a4 : (σ + t - 360) * (Real.pi / 180) < σ * (Real.pi / 180) := mul_lt_mul_of_pos_right (by linarith) (by positivity)
    have e5 : (σ + t - 360) * (Real.pi / 180) = (σ + t) * (Real.pi / 180) - 2 * Real.pi := by ring
    have e : arcAngles s e = Set.Ico (σ * (Real.pi / 180)) Real.pi ∪ Set.Ioc (-Real.pi) ((σ + t - 360) * (Real.pi / 180)) := by
      ext θ
      rw [hmem, Set.mem_union, Set.mem_Ico, Set.mem_Ioc]
      constructor
      · rintro ⟨⟨h1, h2⟩, h3 | h3⟩
        · exact Or.inl ⟨h3.1, h2⟩
        · exact Or.inr ⟨h1, h3⟩
      · rintro (⟨h1, h2⟩ | ⟨h1, h2⟩)
        · exact ⟨⟨by linarith, h2⟩, Or.inl ⟨h1, by linarith⟩⟩
        · exact ⟨⟨h1, by linarith⟩, Or.inr h2⟩
    rw [e]
    refine ⟨measurableSet_Ico.union measurableSet_Ioc, ?_⟩
    rw [measure_union (Set.disjoint_left.mpr fun θ h1 h2 => by linarith [h1.1, h2.2]) measurableSet_Ioc, Real.volume_Ico,
      Real.volume_Ioc, ← ENNReal.ofReal_add (by linarith) (by linarith)]
    congr 1; ring

theorem isCompact_sectorSet (c : Pt) (r0 r1 : ℝ) {s e t : ℝ} (ht : CwTurn s e t) : IsCompact (sectorSet c r0 r1 s e) := by
  have e : sectorSet c r0 r1 s e = (fun p : ℝ × ℝ => c + p.1 • unit p.2) '' (Set.Icc r0 r1 ×ˢ Set.Icc s (s + t)) := by
    ext z
    constructor
    · rintro ⟨ρ, φ, h1, h2, h3, rfl⟩
      obtain ⟨k, k1, k2⟩ := (inArc_iff ht).mp h3
      refine ⟨(ρ, φ + 360 * k), ⟨⟨h1, h2⟩, k1, k2⟩, ?_⟩
      simp only
      rw [unit_congr (a := φ + 360 * k) (b := φ) ⟨k, by ring⟩]
    · rintro ⟨⟨ρ, φ⟩, ⟨⟨h1, h2⟩, h3, h4⟩, rfl⟩
      exact ⟨ρ, φ, h1, h2, (inArc_iff ht).mpr ⟨0, by simpa using h3, by simpa using h4⟩, rfl⟩
  rw [e]
  refine (isCompact_Icc.prod isCompact_Icc).image ?_
  unfold unit
  fun_prop

theorem volume_sectorSet (c : Pt) {r0 r1 : ℝ} (h0 : 0 ≤ r0) (h1 : r0 ≤ r1) {s e t : ℝ} (ht : CwTurn s e t) :
    volume (sectorSet c r0 r1 s e) = ENNReal.ofReal (Real.pi * (r1 ^ 2 - r0 ^ 2) * (t / 360)) := by
  obtain ⟨hA, hvA⟩ := volume_arcAngles ht
  have hpi := Real.pi_pos
  set S := (fun z => c + z) ⁻¹' sectorSet c r0 r1 s e with hS
  have hmS : MeasurableSet S := (isCompact_sectorSet c r0 r1 ht).isClosed.measurableSet.preimage (measurable_const_add c)
  rw [← measure_preimage_add volume c (sectorSet c r0 r1 s e), ← hS, ← lintegral_indicator_one hmS,
    ← lintegral_comp_polarCoord_symm]
  have hcong : ∫⁻ p in polarCoord.target, ENNReal.ofReal p.1 • S.indicator 1 (polarCoord.symm p) =
      ∫⁻ p in polarCoord.target, (Set.Icc r0 r1).indicator (fun r => ENNReal.ofReal r) p.1 *
        (arcAngles s e).indicator (fun _ => 1) p.2 := by
    classical
    refine setLIntegral_congr_fun polarCoord.open_target.measurableSet fun p hp => ?_
    have hp1 : 0 < p.1 := hp.1
    have hm : polarCoord.symm p ∈ S ↔ p.1 ∈ Set.Icc r0 r1 ∧ p.2 ∈ arcAngles s e := by
      have : c + polarCoord.symm p = c + p.1 • unit (p.2 * (180 / Real.pi)) := by
        rw [polarCoord_symm_apply]
        unfold unit
        rw [show p.2 * (180 / Real.pi) * (Real.pi / 180) = p.2 by field_simp]
        rfl
      rw [hS, Set.mem_preimage, mem_sectorSet_polar h0 hp1 this]
      simp only [Set.mem_Icc, arcAngles, Set.mem_ofPred_eq, and_assoc]
      constructor
      · rintro ⟨k1, k2, k3⟩; exact ⟨k1, k2, hp.2, k3⟩
      · rintro ⟨k1, k2, -, k3⟩; exact ⟨k1, k2, k3⟩
    simp only [Set.indicator_apply, hm, smul_eq_mul]
    by_cases k1 : p.1 ∈ Set.Icc r0 r1 <;> by_cases k2 : p.2 ∈ arcAngles s e <;> simp [k1, k2]
  rw [hcong]
  change ∫⁻ p in Set.Ioi (0:ℝ) ×ˢ Set.Ioo (-Real.pi) Real.pi, _ ∂(volume.prod volume) = _
  rw [← Measure.prod_restrict, lintegral_prod_mul]
  · have i1 : ∫⁻ r in Set.Ioi (0:ℝ), (Set.Icc r0 r1).indicator (fun r => ENNReal.ofReal r) r = ENNReal.ofReal ((r1 ^ 2 - r0 ^ 2) / 2) := by
      rw [setLIntegral_indicator measurableSet_Icc]
      have ae : (Set.Icc r0 r1 ∩ Set.Ioi (0:ℝ) : Set ℝ) =ᵐ[volume] Set.Ioc r0 r1 := by
        have h2 : ∀ᵐ r : ℝ, r ≠ r0 := measure_eq_zero_iff_ae_notMem.mp (measure_singleton r0)
        filter_upwards [h2] with r hr
        apply propext
        change (r0 ≤ r ∧ r ≤ r1) ∧ 0 < r ↔ r0 < r ∧ r ≤ r1
        constructor
        · rintro ⟨⟨k1, k2⟩, -⟩; exact ⟨lt_of_le_of_ne k1 hr.symm, k2⟩
        · rintro ⟨k1, k2⟩; exact ⟨⟨k1.le, k2⟩, by linarith⟩
      rw [setLIntegral_congr ae, ← ofReal_integral_eq_lintegral_ofReal]
      · congr 1
        rw [← intervalIntegral.integral_of_le h1, integral_id]
      · exact (continuous_id.intervalIntegrable r0 r1).1
      · filter_upwards [ae_restrict_mem measurableSet_Ioc] with r hr
        exact h0.trans hr.1.le
    have i2 : ∫⁻ θ in Set.Ioo (-Real.pi) Real.pi, (arcAngles s e).indicator (fun _ => 1) θ = ENNReal.ofReal (t * (Real.pi / 180)) := by
      rw [setLIntegral_indicator hA, Set.inter_eq_left.mpr fun θ h => h.1]
      simpa using hvA
    rw [i1, i2, ← ENNReal.ofReal_mul (by nlinarith)]
    congr 1; ring
  · exact (ENNReal.measurable_ofReal.indicator measurableSet_Icc).aemeasurable
  · exact (measurable_const.indicator hA).aemeasurable

theorem Sector.arcDeg_stored (s : Sector ℝ) : CwTurn s.start.deg s.stop.deg s.arcDeg := by
  have hn := AngleDeg.ofNum_normal (s.stop.deg - s.start.deg)
  obtain ⟨k, hk⟩ := AngleDeg.ofNum_angleEq (s.stop.deg - s.start.deg)
  simp only [Sector.arcDeg, AngleDeg.sub, AngleDeg.degree_, Nat.cast_zero, Nat.cast_ofNat]
  split
  · exact ⟨by linarith [hn.1], by linarith, k + 1, by push_cast; linarith⟩
  · exact ⟨by linarith, by linarith [hn.2], k, by linarith⟩

/-- **C169** The area of a sector is the measure of the annular sector given by its stored radii and angles. -/
theorem C169_sector_set (s : Sector ℝ) (h0 : 0 ≤ s.minR) (h1 : s.minR ≤ s.maxR) :
    volume (sectorSet s.center.pt s.minR s.maxR s.start.deg s.stop.deg) = ENNReal.ofReal s.area := by
  rw [volume_sectorSet _ h0 h1 (Sector.arcDeg_stored s)]
  congr 1
  simp only [Sector.area, PyMath.pi, num_real, Nat.cast_ofNat]; ring

/-- **C169**, the points a sector contains: the measure of the set on which the membership test and the annular sector differ is at most
that of the box in which a direction counts as zero. If the inner radius keeps clear of the box, there is no difference at all. -/
theorem C169_sector_partial (s : Sector ℝ) (h0 : 0 ≤ s.minR) (h1 : s.minR ≤ s.maxR)
    (hs : -180 < s.start.deg ∧ s.start.deg ≤ 180) (he : -180 < s.stop.deg ∧ s.stop.deg ≤ 180) :
    (volume (symmDiff {z : Pt | s.contains (Vec.ofXY z.1 z.2) = true} (sectorSet s.center.pt s.minR s.maxR s.start.deg s.stop.deg)) ≤
      ENNReal.ofReal (4 * (EPSILON : ℝ) ^ 2)) ∧
    (2 * (EPSILON : ℝ) ^ 2 ≤ s.minR ^ 2 →
      volume {z : Pt | s.contains (Vec.ofXY z.1 z.2) = true} = ENNReal.ofReal s.area) := by
  have dg : ∀ a : AngleDeg ℝ, -180 < a.deg ∧ a.deg ≤ 180 → a.degree = a.deg := fun a h => AngleDeg.degree_of_normal ⟨h.1.le, h.2⟩
  have key : ∀ z : Pt, ¬ ((Vec.ofXY z.1 z.2).sub s.center).Tiny → (s.contains (Vec.ofXY z.1 z.2) = true ↔
      z ∈ sectorSet s.center.pt s.minR s.maxR s.start.deg s.stop.deg) := by
    intro z hz
    have := C64_stored_partial s (Vec.ofXY z.1 z.2) h0 (h0.trans h1) hs he hz
    rwa [dg _ hs, dg _ he, Vec.pt_ofXY] at this
  have tiny : ∀ z : Pt, ((Vec.ofXY z.1 z.2).sub s.center).Tiny ↔ z ∈ Set.Ioo (s.center.x - EPSILON) (s.center.x + EPSILON) ×ˢ
      Set.Ioo (s.center.y - EPSILON) (s.center.y + EPSILON) := by
    intro z
    simp only [Vec.Tiny, Vec.sub_x, Vec.sub_y, Vec.ofXY, abs_lt, Set.mem_prod, Set.mem_Ioo]
    constructor
    · rintro ⟨⟨k1, k2⟩, k3, k4⟩; exact ⟨⟨by linarith, by linarith⟩, by linarith, by linarith⟩
    · rintro ⟨⟨k1, k2⟩, k3, k4⟩; exact ⟨⟨by linarith, by linarith⟩, by linarith, by linarith⟩
  have hE := EPSILON_pos
  constructor
  · have hsub : symmDiff {z : Pt | s.contains (Vec.ofXY z.1 z.2) = true} (sectorSet s.center.pt s.minR s.maxR s.start.deg s.stop.deg) ⊆
        Set.Ioo (s.center.x - EPSILON) (s.center.x + EPSILON) ×ˢ Set.Ioo (s.center.y - EPSILON) (s.center.y + EPSILON) := by
      intro z hz
      by_contra hn
      have := key z fun h => hn ((tiny z).mp h)
      rw [Set.mem_symmDiff] at hz
      rcases hz with ⟨k1, k2⟩ | ⟨k1, k2⟩
      · exact k2 (this.mp k1)
      · exact k2 (this.mpr k1)
    refine (measure_mono hsub).trans (le_of_eq ?_)
    rw [Measure.volume_eq_prod, Measure.prod_prod, Real.volume_Ioo, Real.volume_Ioo, ← ENNReal.ofReal_mul (by linarith)]
    congr 1; ring
  · intro hb
    rw [← C169_sector_set s h0 h1]
    congr 1
    ext z
    by_cases hz : ((Vec.ofXY z.1 z.2).sub s.center).Tiny
    · have hlt : (z.1 - s.center.x) ^ 2 + (z.2 - s.center.y) ^ 2 < s.minR ^ 2 := by
        obtain ⟨k1, k2⟩ := hz
        have k1 : |z.1 - s.center.x| < EPSILON := k1
        have k2 : |z.2 - s.center.y| < EPSILON := k2
        have l1 := sq_lt_sq' (neg_lt_of_abs_lt k1) (lt_of_abs_lt k1)
        have l2 := sq_lt_sq' (neg_lt_of_abs_lt k2) (lt_of_abs_lt k2)
        linarith
      constructor
      · intro h
        simp only [Set.mem_ofPred_eq, Sector.contains, Bool.and_eq_true, decide_eq_true_eq, Vec.r2_real, Vec.sub_x, Vec.sub_y, Vec.ofXY] at h
        have := h.1.1
        nlinarith
      · rintro ⟨ρ, φ, r1, r2, -, rfl⟩
        exfalso
        have e1 : (s.center.pt + ρ • unit φ).1 - s.center.x = ρ * Real.cos (φ * (Real.pi / 180)) := by simp [unit]
        have e2 : (s.center.pt + ρ • unit φ).2 - s.center.y = ρ * Real.sin (φ * (Real.pi / 180)) := by simp [unit]
        rw [e1, e2] at hlt
        have := Real.cos_sq_add_sin_sq (φ * (Real.pi / 180))
        have : ρ ^ 2 < s.minR ^ 2 := by
          calc ρ ^ 2 = ρ ^ 2 * (Real.cos (φ * (Real.pi / 180)) ^ 2 + Real.sin (φ * (Real.pi / 180)) ^ 2) := by rw [this, mul_one]
            _ < s.minR ^ 2 := by linarith
        nlinarith
    · exact key z hz

/-- **C169** for sectors is false: the half disc to the right also contains a small box around its center. -/
theorem C169_refuted_sector : ∃ s : Sector ℝ, s = Sector.ofArgs (Vec.ofXY 0 0) 0 1 ⟨-90⟩ ⟨90⟩ ∧
    ENNReal.ofReal s.area < volume {z : Pt | s.contains (Vec.ofXY z.1 z.2) = true} := by
  refine ⟨_, rfl, ?_⟩
  set s : Sector ℝ := Sector.ofArgs (Vec.ofXY 0 0) 0 1 ⟨-90⟩ ⟨90⟩ with hs
  have n1 : AngleDeg.ofAngle (⟨-90⟩ : AngleDeg ℝ) = ⟨-90⟩ := AngleDeg.ofAngle_of_normal ⟨by norm_num, by norm_num⟩
  have n2 : AngleDeg.ofAngle (⟨90⟩ : AngleDeg ℝ) = ⟨90⟩ := AngleDeg.ofAngle_of_normal ⟨by norm_num, by norm_num⟩
  have e1 : s.start.deg = -90 := by rw [hs]; simp [Sector.ofArgs, n1]
  have e2 : s.stop.deg = 90 := by rw [hs]; simp [Sector.ofArgs, n2]
  have e3 : s.minR = 0 := by rw [hs]; simp [Sector.ofArgs, pyMin_real]
  have e4 : s.maxR = 1 := by rw [hs]; simp [Sector.ofArgs, pyMax_real]
  have e5 : s.center.pt = 0 := by rw [hs]; simp [Sector.ofArgs, Vec.ofVec, Vec.ofXY, Vec.pt]
  have d1 : (⟨-90⟩ : AngleDeg ℝ).degree = -90 := AngleDeg.degree_of_normal (a := ⟨-90⟩) ⟨by norm_num, by norm_num⟩
  have d2 : (⟨90⟩ : AngleDeg ℝ).degree = 90 := AngleDeg.degree_of_normal (a := ⟨90⟩) ⟨by norm_num, by norm_num⟩
  have ht : CwTurn (-90) 90 180 := ⟨by norm_num, by norm_num, 0, by norm_num⟩
  have hE := EPSILON_pos
  have hE1 : (EPSILON : ℝ) < 1 / 2 := by rw [EPSILON_real]; norm_num
  set U : Set Pt := Set.Ioo (-EPSILON) 0 ×ˢ Set.Ioo (-EPSILON) EPSILON with hU
  have hUv : 0 < volume U := by
    rw [hU, Measure.volume_eq_prod, Measure.prod_prod, Real.volume_Ioo, Real.volume_Ioo]
    exact ENNReal.mul_pos (by simpa using hE) (by simpa using hE)
  have tiny : ∀ z : Pt, ((Vec.ofXY z.1 z.2).sub (Vec.ofXY 0 0)).Tiny → s.contains (Vec.ofXY z.1 z.2) = true := by
    intro z hz
    rw [hs, C64_center (Vec.ofXY 0 0) 0 1 ⟨-90⟩ ⟨90⟩ (Vec.ofXY z.1 z.2) le_rfl (by norm_num) (by norm_num) hz, d1, d2]
    refine ⟨?_, (inArc_iff ht).mpr ⟨0, by norm_num, by norm_num⟩⟩
    obtain ⟨k1, k2⟩ := hz
    rw [Vec.r2_real]
    have := sq_lt_sq' (neg_lt_of_abs_lt k1) (lt_of_abs_lt k1)
    have := sq_lt_sq' (neg_lt_of_abs_lt k2) (lt_of_abs_lt k2)
    rw [max_eq_right (by norm_num)]
    nlinarith
  have hsub : sectorSet 0 0 1 (-90) 90 ∪ U ⊆ {z : Pt | s.contains (Vec.ofXY z.1 z.2) = true} := by
    rintro z (hz | hz)
    · by_cases ht : ((Vec.ofXY z.1 z.2).sub (Vec.ofXY 0 0)).Tiny
      · exact tiny z ht
      · have := C64_contains_partial (Vec.ofXY 0 0) 0 1 ⟨-90⟩ ⟨90⟩ (Vec.ofXY z.1 z.2) le_rfl (by norm_num) (by norm_num) (by norm_num) ht
        rw [d1, d2] at this
        exact this.mpr hz
    · obtain ⟨⟨k1, k2⟩, k3, k4⟩ := hz
      refine tiny z ⟨?_, ?_⟩
      · simp only [Vec.sub_x, Vec.ofXY, sub_zero]; exact abs_lt.mpr ⟨k1, by linarith⟩
      · simp only [Vec.sub_y, Vec.ofXY, sub_zero]; exact abs_lt.mpr ⟨k3, k4⟩
  have hdis : Disjoint (sectorSet 0 0 1 (-90) 90) U := by
    rw [Set.disjoint_left]
    rintro z ⟨ρ, φ, r0, r1, ha, rfl⟩ ⟨⟨-, k2⟩, -⟩
    obtain ⟨k, l1, l2⟩ := (inArc_iff ht).mp ha
    have hu : unit φ = unit (φ + 360 * k) := unit_congr ⟨-k, by push_cast; ring⟩
    rw [hu] at k2
    have hc : 0 ≤ Real.cos ((φ + 360 * k) * (Real.pi / 180)) := by
      have := Real.pi_pos
      apply Real.cos_nonneg_of_neg_pi_div_two_le_of_le
      · have := mul_le_mul_of_nonneg_right l1 (by positivity : 0 ≤ Real.pi / 180)
        linarith
      · have := mul_le_mul_of_nonneg_right l2 (by positivity : 0 ≤ Real.pi / 180)
        linarith
    have : 0 ≤ ρ * Real.cos ((φ + 360 * k) * (Real.pi / 180)) := mul_nonneg r0 hc
    simp [unit] at k2
    linarith
  calc ENNReal.ofReal s.area = volume (sectorSet 0 0 1 (-90) 90) := by
        rw [← C169_sector_set s (by rw [e3]) (by rw [e3, e4]; norm_num), e1, e2, e3, e4, e5]
    _ < volume (sectorSet 0 0 1 (-90) 90) + volume U :=
        ENNReal.lt_add_right (isCompact_sectorSet 0 0 1 ht).measure_lt_top.ne hUv.ne'
    _ = volume (sectorSet 0 0 1 (-90) 90 ∪ U) := (measure_union hdis (measurableSet_Ioo.prod measurableSet_Ioo)).symm
    _ ≤ _ := measure_mono hsub

/-- A quarter of the disc of radius 2 about `(1, 1)`. -/
example : volume (sectorSet (1, 1) 0 2 0 90) = ENNReal.ofReal Real.pi := by
  rw [volume_sectorSet _ le_rfl (by norm_num) (t := 90) ⟨by norm_num, by norm_num, 0, by norm_num⟩]
  congr 1; ring

end PyrusGeom
