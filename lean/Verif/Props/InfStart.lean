import Verif.Model.InfStart
import Verif.Props.Ieee

/-! # C191: bounding box, containment and distance of polygons with NaN and infinite vertices -/

namespace PyrusGeom
open Ieee

/-- `m` is the least of the numbers `S`, NaN not counted; infinity if there is none. -/
structure Spec.LeastNum (S : Ieee → Prop) (m : Ieee) : Prop where
  num : m ≠ nan
  le : ∀ s, S s → s ≠ nan → m ≤ s
  mem : S m ∨ m = inf false

/-- `m` is the greatest of the numbers `S`, NaN not counted; minus infinity if there is none. -/
structure Spec.GreatestNum (S : Ieee → Prop) (m : Ieee) : Prop where
  num : m ≠ nan
  ge : ∀ s, S s → s ≠ nan → s ≤ m
  mem : S m ∨ m = inf true

theorem Ieee.le_trans' {a b c : Ieee} (h : a ≤ b) (h' : b ≤ c) : a ≤ c := by
  change Ieee.le a b at h
  change Ieee.le b c at h'
  change Ieee.le a c
  cases a <;> cases b <;> cases c <;> simp_all [Ieee.le]
  · rename_i s t u
    rcases h with h | h <;> rcases h' with h' | h' <;> simp_all
  · exact h.trans h'

theorem Ieee.le_inf {a : Ieee} (h : a ≠ nan) : a ≤ inf false := by
  change Ieee.le a _
  cases a <;> simp_all [Ieee.le]

theorem Ieee.inf_le {a : Ieee} (h : a ≠ nan) : inf true ≤ a := by
  change Ieee.le _ a
  cases a <;> simp_all [Ieee.le]

theorem Ieee.lt_num {a b : Ieee} (h : a < b) : a ≠ nan ∧ b ≠ nan := Ieee.ne_nan_of_le (Ieee.le_of_lt h)

theorem Ieee.eq_of_le_of_le {a b : Ieee} (h : a ≤ b) (h' : b ≤ a) : a = b := by
  change Ieee.le a b at h
  change Ieee.le b a at h'
  cases a <;> cases b <;> simp_all [Ieee.le]
  · rename_i s t
    cases s <;> cases t <;> simp_all
  · exact le_antisymm h h'

theorem Spec.LeastNum.unique {S : Ieee → Prop} {m n : Ieee} (h : Spec.LeastNum S m) (h' : Spec.LeastNum S n) : m = n := by
  refine Ieee.eq_of_le_of_le ?_ ?_
  · rcases h'.mem with a | a
    · exact h.le _ a h'.num
    · exact a ▸ Ieee.le_inf h.num
  · rcases h.mem with a | a
    · exact h'.le _ a h.num
    · exact a ▸ Ieee.le_inf h'.num

theorem Spec.GreatestNum.unique {S : Ieee → Prop} {m n : Ieee} (h : Spec.GreatestNum S m) (h' : Spec.GreatestNum S n) : m = n := by
  refine Ieee.eq_of_le_of_le ?_ ?_
  · rcases h.mem with a | a
    · exact h'.ge _ a h.num
    · exact a ▸ Ieee.inf_le h'.num
  · rcases h'.mem with a | a
    · exact h.ge _ a h'.num
    · exact a ▸ Ieee.inf_le h.num

namespace Poly

theorem minUpd_spec {S : Ieee → Prop} {m : Ieee} (h : Spec.LeastNum S m) (v : Ieee) : Spec.LeastNum (fun s => S s ∨ s = v) (minUpd m v) := by
  unfold minUpd
  split_ifs with c
  · refine ⟨(Ieee.lt_num c).1, ?_, .inl (.inr rfl)⟩
    rintro s (hs | rfl) n
    · exact Ieee.le_trans' (Ieee.le_of_lt c) (h.le s hs n)
    · exact Ieee.le_refl' n
  · refine ⟨h.num, ?_, h.mem.imp (fun a => .inl a) id⟩
    rintro s (hs | rfl) n
    · exact h.le s hs n
    · exact Ieee.le_of_not_lt n h.num c

theorem maxUpd_spec {S : Ieee → Prop} {m : Ieee} (h : Spec.GreatestNum S m) (v : Ieee) : Spec.GreatestNum (fun s => S s ∨ s = v) (maxUpd m v) := by
  unfold maxUpd
  split_ifs with c
  · refine ⟨(Ieee.lt_num c).2, ?_, .inl (.inr rfl)⟩
    rintro s (hs | rfl) n
    · exact Ieee.le_trans' (h.ge s hs n) (Ieee.le_of_lt c)
    · exact Ieee.le_refl' n
  · refine ⟨h.num, ?_, h.mem.imp (fun a => .inl a) id⟩
    rintro s (hs | rfl) n
    · exact h.ge s hs n
    · exact Ieee.le_of_not_lt h.num n c

theorem foldl_min {α : Type} (f : α → Ieee) : ∀ (l : List α) {S : Ieee → Prop} {m : Ieee}, Spec.LeastNum S m →
    Spec.LeastNum (fun s => S s ∨ ∃ a ∈ l, s = f a) (l.foldl (fun m a => minUpd m (f a)) m)
  | [], S, m, h => by simpa using h
  | a :: l, S, m, h => by
    have := foldl_min f l (minUpd_spec h (f a))
    rw [List.foldl_cons]
    have e : (fun s => S s ∨ ∃ b ∈ a :: l, s = f b) = fun s => (S s ∨ s = f a) ∨ ∃ b ∈ l, s = f b := by
      funext s
      simp [or_assoc]
    rw [e]
    exact this

theorem foldl_max {α : Type} (f : α → Ieee) : ∀ (l : List α) {S : Ieee → Prop} {m : Ieee}, Spec.GreatestNum S m →
    Spec.GreatestNum (fun s => S s ∨ ∃ a ∈ l, s = f a) (l.foldl (fun m a => maxUpd m (f a)) m)
  | [], S, m, h => by simpa using h
  | a :: l, S, m, h => by
    have := foldl_max f l (maxUpd_spec h (f a))
    rw [List.foldl_cons]
    have e : (fun s => S s ∨ ∃ b ∈ a :: l, s = f b) = fun s => (S s ∨ s = f a) ∨ ∃ b ∈ l, s = f b := by
      funext s
      simp [or_assoc]
    rw [e]
    exact this

theorem foldl_inf (vs : List (Vec Ieee)) (b : InfBounds) : vs.foldl infStep b =
    ⟨vs.foldl (fun m v => minUpd m v.x) b.xMin, vs.foldl (fun m v => maxUpd m v.x) b.xMax,
      vs.foldl (fun m v => minUpd m v.y) b.yMin, vs.foldl (fun m v => maxUpd m v.y) b.yMax⟩ := by
  induction vs generalizing b with
  | nil => rfl
  | cons v vs ih => rw [List.foldl_cons, ih]; rfl

theorem least_start : Spec.LeastNum (fun _ => False) (inf false) := ⟨nofun, nofun, .inr rfl⟩
theorem greatest_start : Spec.GreatestNum (fun _ => False) (-(inf false)) := ⟨nofun, nofun, .inr rfl⟩

theorem fold_least {α : Type} (f : α → Ieee) (l : List α) :
    Spec.LeastNum (fun s => ∃ a ∈ l, f a = s) (l.foldl (fun m a => minUpd m (f a)) (inf false)) := by
  have := foldl_min f l least_start
  simpa [eq_comm] using this

theorem fold_greatest {α : Type} (f : α → Ieee) (l : List α) :
    Spec.GreatestNum (fun s => ∃ a ∈ l, f a = s) (l.foldl (fun m a => maxUpd m (f a)) (-(inf false))) := by
  have := foldl_max f l greatest_start
  simpa [eq_comm] using this

/-- **C191** The bounding box of a non-empty polygon, whatever its coordinates: it starts at the least `x` and the least `y`, and
its sides are the differences of greatest and least. NaN coordinates are skipped. (With no number among the `x` the least is
infinity and the greatest minus infinity.) -/
theorem C191_box (p : Poly Ieee) (h : p.vertices ≠ []) : ∃ x0 x1 y0 y1 : Ieee,
    Spec.LeastNum (fun s => ∃ v ∈ p.vertices, v.x = s) x0 ∧ Spec.GreatestNum (fun s => ∃ v ∈ p.vertices, v.x = s) x1 ∧
    Spec.LeastNum (fun s => ∃ v ∈ p.vertices, v.y = s) y0 ∧ Spec.GreatestNum (fun s => ∃ v ∈ p.vertices, v.y = s) y1 ∧
    p.boundingBoxI = .ok ⟨⟨x0, y0, true⟩, ⟨fabs (x1 - x0), fabs (y1 - y0)⟩⟩ := by
  refine ⟨_, _, _, _, fold_least Vec.x p.vertices, fold_greatest Vec.x p.vertices, fold_least Vec.y p.vertices,
    fold_greatest Vec.y p.vertices, ?_⟩
  unfold boundingBoxI
  rw [if_neg (by simpa using h)]
  dsimp only
  rw [foldl_inf]
  rfl

theorem updMin_spec (vs : List (Vec Ieee)) (f : Vec Ieee → Ieee) (h : ∀ v ∈ vs, f v ≠ nan) : ∀ (m : Ieee), m ≠ nan →
    vs.foldl (fun (o : Option Ieee) v => updMin o (f v)) (some m) = some (vs.foldl (fun m v => minUpd m (f v)) m) := by
  induction vs with
  | nil => exact fun m _ => rfl
  | cons v vs ih =>
    intro m hm
    rw [List.foldl_cons, List.foldl_cons]
    have : updMin (some m) (f v) = some (minUpd m (f v)) := by
      unfold updMin minUpd
      dsimp only
      split_ifs <;> rfl
    rw [this]
    refine ih (fun v hv => h v (List.mem_cons_of_mem _ hv)) _ ?_
    unfold minUpd
    split_ifs
    · exact h v List.mem_cons_self
    · exact hm

theorem updMax_spec (vs : List (Vec Ieee)) (f : Vec Ieee → Ieee) (h : ∀ v ∈ vs, f v ≠ nan) : ∀ (m : Ieee), m ≠ nan →
    vs.foldl (fun (o : Option Ieee) v => updMax o (f v)) (some m) = some (vs.foldl (fun m v => maxUpd m (f v)) m) := by
  induction vs with
  | nil => exact fun m _ => rfl
  | cons v vs ih =>
    intro m hm
    rw [List.foldl_cons, List.foldl_cons]
    have : updMax (some m) (f v) = some (maxUpd m (f v)) := by
      unfold updMax maxUpd
      dsimp only
      split_ifs <;> rfl
    rw [this]
    refine ih (fun v hv => h v (List.mem_cons_of_mem _ hv)) _ ?_
    unfold maxUpd
    split_ifs
    · exact h v List.mem_cons_self
    · exact hm

theorem minUpd_start {v : Ieee} (h : v ≠ nan) : minUpd (inf false) v = v := by
  unfold minUpd
  split_ifs with c
  · rfl
  · exact Ieee.eq_of_le_of_le (Ieee.le_of_not_lt h nofun c) (Ieee.le_inf h)

theorem maxUpd_start {v : Ieee} (h : v ≠ nan) : maxUpd (-(inf false)) v = v := by
  unfold maxUpd
  split_ifs with c
  · rfl
  · exact Ieee.eq_of_le_of_le (Ieee.inf_le h) (Ieee.le_of_not_lt nofun h c)

theorem foldl_bounds_ieee (vs : List (Vec Ieee)) (b : Bounds Ieee) : vs.foldl boundsStep b =
    ⟨vs.foldl (fun m v => updMin m v.x) b.xMin, vs.foldl (fun m v => updMax m v.x) b.xMax,
      vs.foldl (fun m v => updMin m v.y) b.yMin, vs.foldl (fun m v => updMax m v.y) b.yMax⟩ := by
  induction vs generalizing b with
  | nil => rfl
  | cons v vs ih => rw [List.foldl_cons, ih]; rfl

/-- **C191** Without NaN among the coordinates the bounding box and `contains` are those of the model with `none` for the initial
infinities, also for infinite coordinates. -/
theorem C191_agree (p : Poly Ieee) (h : ∀ v ∈ p.vertices, ¬ v.HasNan) :
    p.boundingBoxI = p.boundingBox ∧ ∀ (q : Vec Ieee) (b : Bool), p.containsI q b = p.contains q b := by
  have key : p.boundingBoxI = p.boundingBox := by
    obtain ⟨vs⟩ := p
    cases vs with
    | nil => rfl
    | cons v vs =>
      have hx : ∀ w ∈ v :: vs, w.x ≠ nan := fun w hw c => h w hw (.inl c)
      have hy : ∀ w ∈ v :: vs, w.y ≠ nan := fun w hw c => h w hw (.inr c)
      have hx' := fun w (hw : w ∈ vs) => hx w (List.mem_cons_of_mem _ hw)
      have hy' := fun w (hw : w ∈ vs) => hy w (List.mem_cons_of_mem _ hw)
      have x1 := hx v List.mem_cons_self
      have y1 := hy v List.mem_cons_self
      unfold boundingBoxI boundingBox
      rw [if_neg (by simp)]
      dsimp only
      rw [foldl_inf, foldl_bounds_ieee]
      simp only [List.foldl_cons, minUpd_start x1, minUpd_start y1, maxUpd_start x1, maxUpd_start y1]
      simp only [show ∀ v : Ieee, updMin none v = some v from fun _ => rfl, show ∀ v : Ieee, updMax none v = some v from fun _ => rfl,
        updMin_spec vs Vec.x hx' _ x1, updMin_spec vs Vec.y hy' _ y1, updMax_spec vs Vec.x hx' _ x1, updMax_spec vs Vec.y hy' _ y1]
  refine ⟨key, fun q b => ?_⟩
  obtain ⟨vs⟩ := p
  match vs, key with
  | [], _ => rfl
  | [v], _ => rfl
  | v0 :: v1 :: vs, key =>
    simp only [containsI, contains, key]
    cases (⟨v0 :: v1 :: vs⟩ : Poly Ieee).boundingBox <;> rfl

theorem containsI_box {p : Poly Ieee} {q : Vec Ieee} {b : Bool} (h : p.containsI q b = true) :
    (∃ v, p.vertices = [v] ∧ v.eq q = true) ∨ ∃ r, p.boundingBoxI = .ok r ∧ r.contains q = true := by
  obtain ⟨vs⟩ := p
  match vs, h with
  | [], h => exact absurd (show false = true from h) (by decide)
  | [v], h =>
    have h' : (b && v.eq q) = true := h
    exact .inl ⟨v, rfl, ((Bool.and_eq_true _ _).mp h').2⟩
  | v0 :: v1 :: vs, h =>
    right
    unfold containsI at h
    dsimp only at h
    split at h
    · cases h
    · rename_i bb hbb
      refine ⟨bb, hbb, ?_⟩
      by_contra c
      rw [Bool.not_eq_true] at c
      rw [c] at h
      cases h

/-- **C191** A polygon contains no point with a NaN coordinate, whatever its vertices. A point it contains is at or to the right
of some vertex, and at or below some vertex (in the direction of `y`); so a polygon none of whose vertices has a number as `x`
(or none as `y`) contains no point with finite coordinates. -/
theorem C191_contains (p : Poly Ieee) (q : Vec Ieee) (b : Bool) (h : p.containsI q b = true) :
    ¬ q.HasNan ∧ ((∃ v ∈ p.vertices, v.x ≤ q.x) ∨ q.x = inf false) ∧ ((∃ v ∈ p.vertices, v.y ≤ q.y) ∨ q.y = inf false) := by
  rcases containsI_box h with ⟨v, hv, e⟩ | ⟨r, hr, hc⟩
  · unfold Vec.eq at e
    rw [Bool.and_eq_true, Ieee.beq_iff, Ieee.beq_iff] at e
    have num : ∀ a c : Ieee, same a c → a ≤ c := by
      intro a c hs
      change Ieee.le a c
      cases a <;> cases c <;> simp_all [same, Ieee.le]
    have h1 := num _ _ e.1
    have h2 := num _ _ e.2
    refine ⟨?_, .inl ⟨v, by simp [hv], h1⟩, .inl ⟨v, by simp [hv], h2⟩⟩
    rintro (c | c)
    · exact (Ieee.ne_nan_of_le h1).2 c
    · exact (Ieee.ne_nan_of_le h2).2 c
  · have hne : p.vertices ≠ [] := by
      intro e
      unfold boundingBoxI at hr
      rw [e] at hr
      cases hr
    obtain ⟨x0, x1, y0, y1, hx0, -, hy0, -, e⟩ := C191_box p hne
    rw [e] at hr
    cases hr
    unfold Rect.contains at hc
    simp only [Bool.and_eq_true, decide_eq_true_eq] at hc
    obtain ⟨⟨⟨c1, -⟩, c3⟩, -⟩ := hc
    have c1 : x0 ≤ q.x := c1
    have c3 : y0 ≤ q.y := c3
    refine ⟨?_, ?_, ?_⟩
    · rintro (c | c)
      · exact (Ieee.ne_nan_of_le c1).2 c
      · exact (Ieee.ne_nan_of_le c3).2 c
    · rcases hx0.mem with ⟨v, hv, ev⟩ | e0
      · exact .inl ⟨v, hv, ev ▸ c1⟩
      · exact .inr (Ieee.eq_of_le_of_le (Ieee.le_inf (Ieee.ne_nan_of_le c1).2) (e0 ▸ c1))
    · rcases hy0.mem with ⟨v, hv, ev⟩ | e0
      · exact .inl ⟨v, hv, ev ▸ c3⟩
      · exact .inr (Ieee.eq_of_le_of_le (Ieee.le_inf (Ieee.ne_nan_of_le c3).2) (e0 ▸ c3))

/-- The edges of a polygon: from each vertex to the next, and from the last to the first if there are at least three. -/
def _root_.PyrusGeom.Spec.IsEdge (vs : List (Vec Ieee)) (e : Vec Ieee × Vec Ieee) : Prop :=
  (∃ i, ∃ h : i + 1 < vs.length, e = (vs[i], vs[i + 1])) ∨ ∃ h : 3 ≤ vs.length, e = (vs[vs.length - 1], vs[0])

theorem mem_chainPairs {α : Type} {l : List α} {e : α × α} : e ∈ chainPairs l ↔ ∃ i, ∃ h : i + 1 < l.length, e = (l[i], l[i + 1]) := by
  unfold chainPairs
  rw [List.mem_iff_getElem]
  constructor
  · rintro ⟨i, h, rfl⟩
    rw [List.length_zip, List.length_tail] at h
    refine ⟨i, by omega, ?_⟩
    rw [List.getElem_zip, List.getElem_tail]
  · rintro ⟨i, h, rfl⟩
    refine ⟨i, by rw [List.length_zip, List.length_tail]; omega, ?_⟩
    rw [List.getElem_zip, List.getElem_tail]

/-- **C191** The distance of a point from a polygon with no or at least two vertices, whatever the coordinates: 0 if the polygon
is taken as a plane and contains the point, else the least of the distances from the edges. A distance that is NaN is skipped;
the result is never NaN, and infinity if no edge has a distance that is a number. -/
theorem C191_dist (p : Poly Ieee) (q : Vec Ieee) (b : Bool) (h : p.vertices.length ≠ 1) :
    (b = true → p.containsI q true = true → p.distI q b = fin 0) ∧
    ((b = true → p.containsI q true = false) →
      Spec.LeastNum (fun s => ∃ e, Spec.IsEdge p.vertices e ∧ (Seg.ofPoints e.1 e.2).distPoint q = s) (p.distI q b)) := by
  have e0 : (num 0 : Ieee) = fin 0 := by
    refine (Ieee.ofReal_of_le (n := 0) (by norm_num) (by norm_num)).trans ?_
    rw [Nat.cast_zero, rne_zero]
  have hd : p.distI q b = if b && p.containsI q true then num 0 else
      (chainPairs p.vertices ++ (match p.vertices with
        | v0 :: _ :: v2 :: rest => [((v2 :: rest).getLast (List.cons_ne_nil _ _), v0)]
        | _ => [])).foldl (fun m e => minUpd m ((Seg.ofPoints e.1 e.2).distPoint q)) (inf false) := by
    obtain ⟨vs⟩ := p
    match vs, h with
    | [], _ => rfl
    | [v], h => exact absurd rfl h
    | [v, w], _ => rfl
    | v :: w :: u :: vs, _ =>
      rw [List.foldl_append]
      rfl
  constructor
  · intro h1 h2
    rw [hd, h1, h2]
    exact e0
  · intro h1
    have hb : (b && p.containsI q true) = false := by
      cases b with
      | false => rfl
      | true => exact h1 rfl
    rw [hd, hb]
    have := fold_least (fun e : Vec Ieee × Vec Ieee => (Seg.ofPoints e.1 e.2).distPoint q) (chainPairs p.vertices ++ (match p.vertices with
        | v0 :: _ :: v2 :: rest => [((v2 :: rest).getLast (List.cons_ne_nil _ _), v0)]
        | _ => []))
    have e : (fun s => ∃ e, Spec.IsEdge p.vertices e ∧ (Seg.ofPoints e.1 e.2).distPoint q = s) =
        (fun s => ∃ e ∈ (chainPairs p.vertices ++ (match p.vertices with
        | v0 :: _ :: v2 :: rest => [((v2 :: rest).getLast (List.cons_ne_nil _ _), v0)]
        | _ => [])), (Seg.ofPoints e.1 e.2).distPoint q = s) := by
      funext s
      refine propext (exists_congr fun e => and_congr_left fun _ => ?_)
      rw [List.mem_append, mem_chainPairs]
      unfold Spec.IsEdge
      refine or_congr Iff.rfl ?_
      obtain ⟨vs⟩ := p
      match vs with
      | [] => simp
      | [v] => simp
      | [v, w] => simp
      | v :: w :: u :: vs => simp [List.getLast_eq_getElem]
    rw [e]
    exact this

/-- **C191** The distances of the two models agree if the distances from the edges are numbers. -/
theorem C191_dist_agree (p : Poly Ieee) (q : Vec Ieee) (b : Bool) (h : ∀ v ∈ p.vertices, ¬ v.HasNan)
    (hd : ∀ e, Spec.IsEdge p.vertices e → (Seg.ofPoints e.1 e.2).distPoint q ≠ nan) :
    p.distI q b = (p.dist q b).getD (inf false) := by
  have hc := (C191_agree p h).2 q true
  have gen : ∀ (l : List (Vec Ieee × Vec Ieee)), (∀ e ∈ l, (Seg.ofPoints e.1 e.2).distPoint q ≠ nan) → ∀ o : Option Ieee, o ≠ some nan →
      l.foldl (distStepI q) (o.getD (inf false)) = (l.foldl (distStep q) o).getD (inf false) ∧ l.foldl (distStep q) o ≠ some nan := by
    intro l
    induction l with
    | nil => exact fun _ o ho => ⟨rfl, ho⟩
    | cons e l ih =>
      intro hl o ho
      rw [List.foldl_cons, List.foldl_cons]
      have he := hl e List.mem_cons_self
      have h1 : distStepI q (o.getD (inf false)) e = (distStep q o e).getD (inf false) ∧ distStep q o e ≠ some nan := by
        unfold distStepI distStep
        cases o with
        | none => exact ⟨minUpd_start he, fun c => he (Option.some.inj c)⟩
        | some m =>
          unfold minUpd updMin
          dsimp only [Option.getD_some]
          split_ifs
          · exact ⟨rfl, fun c => he (Option.some.inj c)⟩
          · exact ⟨rfl, ho⟩
      rw [h1.1]
      exact ih (fun e he => hl e (List.mem_cons_of_mem _ he)) _ h1.2
  obtain ⟨vs⟩ := p
  match vs, hd, hc with
  | [], hd, hc => cases b <;> rfl
  | [v], hd, hc => rfl
  | [v, w], hd, hc =>
    unfold distI dist
    dsimp only
    rw [hc]
    split_ifs
    · rfl
    · exact (gen (chainPairs [v, w]) (fun e he => hd e (.inl (mem_chainPairs.mp he))) none nofun).1
  | v :: w :: u :: vs, hd, hc =>
    unfold distI dist
    dsimp only
    rw [hc]
    split_ifs
    · rfl
    · have h1 := gen (chainPairs (v :: w :: u :: vs)) (fun e he => hd e (.inl (mem_chainPairs.mp he))) none nofun
      have h2 := gen [((u :: vs).getLast (List.cons_ne_nil _ _), v)] (fun e he => hd e (.inr ⟨by simp, by
        rw [List.mem_singleton] at he
        rw [he]
        simp [List.getLast_eq_getElem]⟩)) _ h1.2
      rw [← h1.1] at h2
      exact h2.1

/-- C191: with a NaN among the `x` of the vertices (0, 0), (NaN, 5), (4, 2) the box starts at (0, 0) and is 4 long and 5 wide. -/
example : (Poly.ofList [Vec.ofXY (fin 0) (fin 0), Vec.ofXY nan (fin 5), Vec.ofXY (fin 4) (fin 2)]).boundingBoxI =
    .ok ⟨⟨fin 0, fin 0, true⟩, ⟨fin 4, fin 5⟩⟩ := by
  obtain ⟨x0, x1, y0, y1, h1, h2, h3, h4, e⟩ := C191_box (Poly.ofList [Vec.ofXY (fin 0) (fin 0), Vec.ofXY nan (fin 5), Vec.ofXY (fin 4) (fin 2)]) nofun
  have a0 : Spec.LeastNum (fun s => ∃ v ∈ [Vec.ofXY (fin 0) (fin 0), Vec.ofXY nan (fin 5), Vec.ofXY (fin 4) (fin 2)], v.x = s) (fin 0) :=
    ⟨nofun, by rintro s ⟨v, hv, rfl⟩ n; simp at hv; rcases hv with rfl | rfl | rfl
               · exact Ieee.le_refl' n
               · exact absurd rfl n
               · exact show (0 : ℝ) ≤ 4 by norm_num, .inl ⟨Vec.ofXY (fin 0) (fin 0), by simp, rfl⟩⟩
  have a1 : Spec.GreatestNum (fun s => ∃ v ∈ [Vec.ofXY (fin 0) (fin 0), Vec.ofXY nan (fin 5), Vec.ofXY (fin 4) (fin 2)], v.x = s) (fin 4) :=
    ⟨nofun, by rintro s ⟨v, hv, rfl⟩ n; simp at hv; rcases hv with rfl | rfl | rfl
               · exact show (0 : ℝ) ≤ 4 by norm_num
               · exact absurd rfl n
               · exact Ieee.le_refl' n, .inl ⟨Vec.ofXY (fin 4) (fin 2), by simp, rfl⟩⟩
  have a2 : Spec.LeastNum (fun s => ∃ v ∈ [Vec.ofXY (fin 0) (fin 0), Vec.ofXY nan (fin 5), Vec.ofXY (fin 4) (fin 2)], v.y = s) (fin 0) :=
    ⟨nofun, by rintro s ⟨v, hv, rfl⟩ n; simp at hv; rcases hv with rfl | rfl | rfl
               · exact Ieee.le_refl' n
               · exact show (0 : ℝ) ≤ 5 by norm_num
               · exact show (0 : ℝ) ≤ 2 by norm_num, .inl ⟨Vec.ofXY (fin 0) (fin 0), by simp, rfl⟩⟩
  have a3 : Spec.GreatestNum (fun s => ∃ v ∈ [Vec.ofXY (fin 0) (fin 0), Vec.ofXY nan (fin 5), Vec.ofXY (fin 4) (fin 2)], v.y = s) (fin 5) :=
    ⟨nofun, by rintro s ⟨v, hv, rfl⟩ n; simp at hv; rcases hv with rfl | rfl | rfl
               · exact show (0 : ℝ) ≤ 5 by norm_num
               · exact Ieee.le_refl' n
               · exact show (2 : ℝ) ≤ 5 by norm_num, .inl ⟨Vec.ofXY nan (fin 5), by simp, rfl⟩⟩
  rw [h1.unique a0, h2.unique a1, h3.unique a2, h4.unique a3] at e
  rw [e]
  have sub0 : ∀ n : ℕ, n ≤ 8 → fabs (fin n - fin 0) = fin n := by
    intro n hn
    have : (fin (n : ℝ) - fin 0 : Ieee) = fin n := by
      change Ieee.ofReal ((n : ℝ) + -0) = _
      rw [neg_zero, add_zero, Ieee.ofReal_of_le (n := 3) (by norm_num) (by rw [abs_of_nonneg (Nat.cast_nonneg _)]; norm_num; exact hn),
        rne_of_isDouble (isDouble_nat (by omega))]
    rw [this]
    unfold fabs
    have e0 : (num 0 : Ieee) = fin 0 := by
      refine (Ieee.ofReal_of_le (n := 0) (by norm_num) (by norm_num)).trans ?_
      rw [Nat.cast_zero, rne_zero]
    rw [e0, if_neg (show ¬ (fin (n : ℝ) : Ieee) < fin 0 from not_lt.mpr (Nat.cast_nonneg (α := ℝ) n))]
  have s4 := sub0 4 (by norm_num)
  have s5 := sub0 5 (by norm_num)
  norm_num at s4 s5
  rw [s4, s5]

/-- C191: it contains no NaN point. -/
example (b : Bool) : (Poly.ofList [Vec.ofXY (fin 0) (fin 0), Vec.ofXY nan (fin 5), Vec.ofXY (fin 4) (fin 2)]).containsI (Vec.ofXY nan (fin 1)) b = false := by
  by_contra c
  rw [Bool.not_eq_false] at c
  exact (C191_contains _ _ b c).1 (.inl rfl)

end Poly
end PyrusGeom
