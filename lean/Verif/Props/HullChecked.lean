import Verif.Model.HullChecked
import Verif.Props.Graham
import Verif.Props.HullInput
import Verif.Props.CheckedIeee
import Verif.Props.FloatHull
import Verif.Props.Mutators

/-! # C164: computing a hull ends and does not raise -/

namespace PyrusGeom
open Spec

namespace Hull

section generic

variable {K : Type} [Add K] [Sub K] [Mul K] [Div K] [Neg K] [NatCast K] [LT K] [LE K]
  [DecidableLT K] [DecidableLE K] [BEq K] [PyMath K]

/-! ## Checked list accesses -/

theorem atE_of (pts : List (Vec K)) {i : ℕ} (h : i < pts.length) : atE pts i = .ok (at' pts i) := by
  unfold atE
  rw [pyGet_nat pts i h]
  simp [at', List.getD_eq_getElem?_getD, h]

theorem foldlM_of {α β : Type} {f : β → α → β} {g : β → α → Except PyErr β} (P : β → Prop) (l : List α)
    (h : ∀ s, ∀ a ∈ l, P s → g s a = .ok (f s a) ∧ P (f s a)) (s : β) (hs : P s) :
    l.foldlM g s = .ok (l.foldl f s) ∧ P (l.foldl f s) := by
  induction l generalizing s with
  | nil => exact ⟨rfl, hs⟩
  | cons a l ih =>
    obtain ⟨h1, h2⟩ := h s a List.mem_cons_self hs
    rw [List.foldlM_cons, h1]
    exact ih (fun s a ha => h s a (List.mem_cons_of_mem _ ha)) _ h2

theorem minPointIndexE_of (pts : List (Vec K)) : minPointIndexE pts = .ok (minPointIndex pts) ∧
    (pts ≠ [] → 0 ≤ minPointIndex pts ∧ minPointIndex pts < pts.length) := by
  unfold minPointIndexE minPointIndex
  split_ifs with h
  · exact ⟨rfl, fun h' => absurd (List.length_eq_zero_iff.mp h) h'⟩
  · obtain ⟨h1, h2⟩ := foldlM_of (f := minStep pts) (g := minStepE pts) (fun s => s.1 < pts.length) (List.range pts.length)
      (fun s a ha hs => by
        rw [List.mem_range] at ha
        unfold minStepE minStep
        rw [atE_of pts ha]
        refine ⟨rfl, ?_⟩
        dsimp only
        split_ifs
        · exact ha
        · exact hs) (0, at' pts 0) (by dsimp only; omega)
    refine ⟨?_, fun _ => ⟨Int.natCast_nonneg _, by exact_mod_cast h2⟩⟩
    rw [atE_of pts (by omega)]
    change ((List.range pts.length).foldlM (minStepE pts) (0, at' pts 0) >>= fun s => _) = _
    rw [h1]
    rfl

theorem firstCandidate_any {n cur : ℕ} {used : List ℕ} (h : 0 < n) : firstCandidate n cur used < n := by
  unfold firstCandidate
  cases hf : (List.range n).find? (fun i => !(i == cur || used.contains i)) with
  | none => exact h
  | some i => exact List.mem_range.mp (List.mem_of_find?_eq_some hf)

theorem nextIndexE_of {pts : List (Vec K)} (h : 0 < pts.length) (cur : ℕ) (used : List ℕ) :
    (let c := firstCandidate pts.length cur used
     (List.range' (c + 1) (pts.length - (c + 1))).foldlM (candStepE pts cur (at' pts cur) used) c) = .ok (nextIndex pts cur used) ∧
    nextIndex pts cur used < pts.length := by
  have hc := firstCandidate_any (cur := cur) (used := used) h
  refine foldlM_of (fun c => c < pts.length) _ (fun s a ha hs => ?_) _ hc
  rw [List.mem_range'_1] at ha
  have ha' : a < pts.length := by omega
  unfold candStepE candStep
  rw [atE_of pts hs, atE_of pts ha', except_ok_bind, except_ok_bind]
  by_cases h1 : (a == cur || used.contains a) = true
  · rw [if_pos h1, if_pos h1]; exact ⟨rfl, hs⟩
  · rw [if_neg h1, if_neg h1]
    refine ⟨rfl, ?_⟩
    dsimp only
    split_ifs
    · exact ha'
    · exact ha'
    · exact hs

/-- The gift wrapping loop reads only existing points; the points it returns are not the empty list. -/
theorem wrapLoopE_of {pts : List (Vec K)} (h : 0 < pts.length) (m : ℕ) : ∀ (n cur : ℕ) (used : List ℕ) (vs : List (Vec K)),
    wrapLoopE pts m n cur (at' pts cur) used vs = .ok (wrapLoop pts m n cur used vs) ∧
    (vs ≠ [] → wrapLoop pts m n cur used vs ≠ []) := by
  intro n
  induction n with
  | zero => exact fun cur used vs => ⟨rfl, fun h => h⟩
  | succ n ih =>
    intro cur used vs
    obtain ⟨h1, h2⟩ := nextIndexE_of h cur used
    unfold wrapLoopE wrapLoop
    dsimp only at h1 ⊢
    rw [h1, except_ok_bind, atE_of pts h2, except_ok_bind]
    split_ifs
    · exact ⟨rfl, fun _ => by simp⟩
    · exact ⟨(ih _ _ _).1, fun _ => (ih _ _ _).2 (by simp)⟩

theorem pyGet_neg_one {α : Type} (l : List α) (h : l ≠ []) : pyGet l (-1) = .ok (l.getLast h) := by
  have hl : 0 < l.length := List.length_pos_iff.mpr h
  unfold pyGet
  simp only [Int.reduceNeg, neg_lt_zero, zero_lt_one, if_true]
  rw [if_neg (by omega), show (-1 + (l.length : ℤ)).toNat = l.length - 1 by omega, List.getElem?_eq_getElem (by omega),
    List.getLast_eq_getElem]

theorem pyGet_cases {α : Type} (l : List α) (i : ℤ) :
    (-(l.length : ℤ) ≤ i ∧ i < l.length ∧ ∃ a ∈ l, pyGet l i = .ok a) ∨
    ((i < -(l.length : ℤ) ∨ (l.length : ℤ) ≤ i) ∧ pyGet l i = .error .indexError) := by
  unfold pyGet
  dsimp only
  by_cases h : i < 0
  · rw [if_pos h]
    by_cases h' : i + l.length < 0
    · rw [if_pos h']; exact .inr ⟨by omega, rfl⟩
    · rw [if_neg h', List.getElem?_eq_getElem (by omega)]
      exact .inl ⟨by omega, by omega, _, List.getElem_mem _, rfl⟩
  · rw [if_neg h, if_neg h]
    by_cases h' : (l.length : ℤ) ≤ i
    · rw [List.getElem?_eq_none (by omega)]; exact .inr ⟨.inr h', rfl⟩
    · rw [List.getElem?_eq_getElem (by omega)]
      exact .inl ⟨by omega, by omega, _, List.getElem_mem _, rfl⟩

open Classical in
/-- The edge loop raises exactly when the last point differs from itself. -/
theorem hullEdgesE_of (vs : List (Vec K)) (h : vs ≠ []) :
    hullEdgesE vs = if (vs.getLast h).eq (vs.getLast h) = true then .ok (hullEdges vs) else .error .indexError := by
  have hl : 0 < vs.length := List.length_pos_iff.mpr h
  have hlast : at' vs (vs.length - 1) = vs.getLast h := by
    rw [List.getLast_eq_getElem]
    simp [at', List.getD_eq_getElem?_getD, hl]
  let step : List (Seg K) → ℕ → List (Seg K) := fun es i =>
    es ++ (if !((at' vs i).eq (at' vs (vs.length - 1))) then some (Seg.ofPoints (at' vs i) (at' vs (i + 1))) else none).toList
  have hstep : ∀ (es : List (Seg K)) (i : ℕ), i + 1 < vs.length → edgeStepE vs es i = .ok (step es i) := by
    intro es i hi
    unfold edgeStepE
    rw [atE_of vs (by omega), except_ok_bind, pyGet_neg_one vs h, except_ok_bind, atE_of vs hi]
    simp only [step, hlast]
    split_ifs with hc
    · rfl
    · simp only [Option.toList, List.append_nil]; rfl
  have hfold : ∀ (l : List ℕ) (es : List (Seg K)), l.foldl step es = es ++ l.filterMap fun i =>
      if !((at' vs i).eq (at' vs (vs.length - 1))) then some (Seg.ofPoints (at' vs i) (at' vs (i + 1))) else none := by
    intro l
    induction l with
    | nil => simp
    | cons i l ih =>
      intro es
      rw [List.foldl_cons, ih, List.filterMap_cons]
      simp only [step]
      split_ifs <;> simp
  have hsplit : List.range vs.length = List.range (vs.length - 1) ++ [vs.length - 1] := by
    rw [← List.range_succ]; congr 1; omega
  unfold hullEdgesE hullEdges
  rw [hsplit, List.foldlM_append, List.filterMap_append,
    (foldlM_of (f := step) (fun _ => True) _ (fun s a ha _ => ⟨hstep s a (by rw [List.mem_range] at ha; omega), trivial⟩) [] trivial).1,
    hfold, except_ok_bind, List.nil_append, List.foldlM_cons]
  simp only [List.foldlM_nil]
  unfold edgeStepE
  rw [atE_of vs (by omega), except_ok_bind, pyGet_neg_one vs h, except_ok_bind, hlast]
  have hout : atE vs (vs.length - 1 + 1) = .error .indexError := by
    obtain ⟨_, k, -⟩ | ⟨_, k⟩ := pyGet_cases vs ((vs.length - 1 + 1 : ℕ) : ℤ)
    · omega
    · exact k
  rw [hout]
  by_cases hc : (vs.getLast h).eq (vs.getLast h) = true
  · simp [hc, hlast, pure, Except.pure]
  · rw [if_neg hc]
    simp only [Bool.not_eq_true] at hc
    rw [hc]
    rfl

theorem wrapLoop_mem {pts : List (Vec K)} (h : 0 < pts.length) (m : ℕ) : ∀ (n cur : ℕ) (used : List ℕ) (vs : List (Vec K)),
    (∀ v ∈ vs, v ∈ pts) → ∀ v ∈ wrapLoop pts m n cur used vs, v ∈ pts := by
  intro n
  induction n with
  | zero => exact fun cur used vs h => h
  | succ n ih =>
    intro cur used vs hvs
    have h2 := (nextIndexE_of h cur used).2
    have hat : at' pts (nextIndex pts cur used) ∈ pts := by
      simp [at', List.getD_eq_getElem?_getD, h2]
    have hnew : ∀ v ∈ vs ++ [at' pts (nextIndex pts cur used)], v ∈ pts := by
      intro v hv
      rcases List.mem_append.mp hv with hv | hv
      · exact hvs v hv
      · rw [List.mem_singleton.mp hv]; exact hat
    unfold wrapLoop
    dsimp only
    split_ifs
    · exact hnew
    · exact ih _ _ _ hnew

/-- **C164** Gift wrapping returns what the model says unless a point differs from itself, i.e. has a NaN coordinate; the only exception is
`IndexError`, and if all points differ from themselves it is raised. For any kind of numbers. -/
theorem C164_wrapping_any (h : Obj K) :
    ((∀ v ∈ h.clearResults.input, v.eq v = true) → wrappingE h = .ok (wrapping h)) ∧
    (wrappingE h = .ok (wrapping h) ∨ wrappingE h = .error .indexError) ∧
    (3 ≤ h.clearResults.input.length → (∀ v ∈ h.clearResults.input, v.eq v = false) → wrappingE h = .error .indexError) := by
  unfold wrappingE wrapping
  generalize h.clearResults = g
  obtain ⟨h1, h2⟩ := minPointIndexE_of g.input
  dsimp only
  rw [h1, except_ok_bind]
  by_cases hn : (decide (g.input.length < 3) || minPointIndex g.input == -1) = true
  · rw [if_pos hn, if_pos hn]
    refine ⟨fun _ => rfl, .inl rfl, fun h3 => ?_⟩
    have hne : g.input ≠ [] := by rintro e; rw [e] at h3; simp at h3
    have := (h2 hne).1
    simp only [Bool.or_eq_true, decide_eq_true_eq, beq_iff_eq] at hn
    omega
  · rw [if_neg hn, if_neg hn]
    simp only [Bool.or_eq_true, decide_eq_true_eq, beq_iff_eq, not_or] at hn
    have hne : g.input ≠ [] := by rintro e; rw [e] at hn; simp at hn
    obtain ⟨h3, h4⟩ := h2 hne
    have hl : 0 < g.input.length := by omega
    have hp : pyGet g.input (minPointIndex g.input) = .ok (at' g.input (minPointIndex g.input).toNat) := by
      have := atE_of g.input (i := (minPointIndex g.input).toNat) (by omega)
      unfold atE at this
      rwa [Int.toNat_of_nonneg h3] at this
    obtain ⟨h5, h6⟩ := wrapLoopE_of hl (minPointIndex g.input).toNat (g.input.length + 1) (minPointIndex g.input).toNat []
      [at' g.input (minPointIndex g.input).toNat]
    have hm : at' g.input (minPointIndex g.input).toNat ∈ g.input := by
      have : (minPointIndex g.input).toNat < g.input.length := by omega
      simp [at', List.getD_eq_getElem?_getD, this]
    have h7 := wrapLoop_mem hl (minPointIndex g.input).toNat (g.input.length + 1) (minPointIndex g.input).toNat []
      [at' g.input (minPointIndex g.input).toNat] (by intro v hv; rw [List.mem_singleton.mp hv]; exact hm)
    replace h6 := h6 (by simp)
    rw [hp, except_ok_bind, h5, except_ok_bind]
    revert h6 h7
    generalize wrapLoop g.input (minPointIndex g.input).toNat (g.input.length + 1) (minPointIndex g.input).toNat []
      [at' g.input (minPointIndex g.input).toNat] = vs
    intro h7 h6
    have h8 := h7 _ (List.getLast_mem h6)
    have hpop : pyPop vs = .ok vs.dropLast := by
      unfold pyPop; rw [if_neg (by simpa using h6)]
    rw [hullEdgesE_of vs h6, hpop]
    refine ⟨fun hr => ?_, ?_, fun _ hr => ?_⟩
    · rw [if_pos (hr _ h8)]; rfl
    · split_ifs
      · exact .inl rfl
      · exact .inr rfl
    · rw [if_neg (by rw [hr _ h8]; simp)]; rfl

/-! ## The direct method -/

theorem directKE_of {pts : List (Vec K)} (i j : ℕ) (rel p1 : Vec K) : ∀ (ks : List ℕ) (last : K), (∀ k ∈ ks, k < pts.length) →
    directKE pts i j rel p1 ks last = .ok (directK pts i j rel p1 ks last) := by
  intro ks
  induction ks with
  | nil => exact fun _ _ => rfl
  | cons k ks ih =>
    intro last hk
    have ih := fun last => ih last (fun k h => hk k (List.mem_cons_of_mem _ h))
    unfold directKE directK
    rw [atE_of pts (hk k List.mem_cons_self), except_ok_bind]
    dsimp only
    split_ifs
    · exact ih _
    · rfl
    · rfl
    · exact ih _

/-- **C164** The direct method does not raise, for any kind of numbers. -/
theorem C164_direct_any (srt) (h : Obj K) : directE srt h = .ok (direct srt h) := by
  unfold directE direct
  generalize h.clearResults = g
  dsimp only
  by_cases hn : g.input.length < 3
  · rw [if_pos hn, if_pos hn]; rfl
  · rw [if_neg hn, if_neg hn]
    rw [(foldlM_of (f := directStep g.input) (fun _ => True) _ (fun s a ha _ => ⟨?_, trivial⟩) ([], []) trivial).1]
    · rfl
    · simp only [directPairs, List.mem_flatMap, List.mem_range, List.mem_map, List.mem_range'_1] at ha
      obtain ⟨i, hi, j, hj, rfl⟩ := ha
      unfold directStepE directStep
      rw [atE_of _ (by dsimp only; omega), except_ok_bind, atE_of _ (by dsimp only; omega), except_ok_bind,
        directKE_of _ _ _ _ _ _ (fun k hk => List.mem_range.mp hk), except_ok_bind]
      dsimp only
      cases directK g.input i j ((at' g.input j).sub (at' g.input i)) (at' g.input i) (List.range g.input.length) (num 0) <;> rfl

/-! ## The Graham scan -/

/-- The bound on the number of rounds in the model is never reached. -/
theorem grahamWhile_whileTop (vs : List (Vec K)) (p : Vec K) : ∀ (fuel : ℕ) (top : ℤ), top + vs.length < fuel →
    WhileTop vs p top (grahamWhile vs p fuel top) := by
  intro fuel
  induction fuel with
  | zero =>
    intro top h
    refine .raise₁ ?_
    obtain ⟨h1, _⟩ | ⟨_, h1⟩ := pyGet_cases vs (top - 1)
    · push_cast at h; omega
    · exact h1
  | succ n ih =>
    intro top h
    unfold grahamWhile
    cases ha : pyGet vs (top - 1) with
    | error e => exact .raise₁ ha
    | ok a =>
      cases hb : pyGet vs top with
      | error e => exact .raise₂ ha hb
      | ok b =>
        simp only [except_ok_bind]
        by_cases hc : isClockwise a b p = true
        · rw [if_pos hc]; exact .stop ha hb hc
        · rw [if_neg hc]
          exact .round ha hb (by simpa using hc) (ih (top - 1) (by push_cast at h; omega))

theorem WhileTop.unique {vs : List (Vec K)} {p : Vec K} {top : ℤ} {r s : Except PyErr ℤ} (h : WhileTop vs p top r)
    (k : WhileTop vs p top s) : r = s := by
  induction h with
  | stop h1 h2 h3 =>
    cases k with
    | stop k1 k2 k3 => rfl
    | round k1 k2 k3 k4 => rw [h1] at k1; rw [h2] at k2; cases k1; cases k2; rw [h3] at k3; cases k3
    | raise₁ k1 => rw [h1] at k1; cases k1
    | raise₂ k1 k2 => rw [h2] at k2; cases k2
  | round h1 h2 h3 h4 ih =>
    cases k with
    | stop k1 k2 k3 => rw [h1] at k1; rw [h2] at k2; cases k1; cases k2; rw [h3] at k3; cases k3
    | round k1 k2 k3 k4 => exact ih k4
    | raise₁ k1 => rw [h1] at k1; cases k1
    | raise₂ k1 k2 => rw [h2] at k2; cases k2
  | raise₁ h1 =>
    cases k with
    | stop k1 k2 k3 => rw [h1] at k1; cases k1
    | round k1 k2 k3 k4 => rw [h1] at k1; cases k1
    | raise₁ k1 => rw [h1] at k1; cases k1; rfl
    | raise₂ k1 k2 => rw [h1] at k1; cases k1
  | raise₂ h1 h2 =>
    cases k with
    | stop k1 k2 k3 => rw [h2] at k2; cases k2
    | round k1 k2 k3 k4 => rw [h2] at k2; cases k2
    | raise₁ k1 => rw [h1] at k1; cases k1
    | raise₂ k1 k2 => rw [h2] at k2; cases k2; rfl

theorem WhileTop.le {vs : List (Vec K)} {p : Vec K} {top : ℤ} {r : Except PyErr ℤ} (h : WhileTop vs p top r) : ∀ t, r = .ok t →
    t ≤ top ∧ -(vs.length : ℤ) < t ∧ t < vs.length := by
  induction h with
  | @stop top a b h1 h2 h3 =>
    rintro t ⟨⟩
    obtain ⟨k1, k2, -⟩ | ⟨_, k⟩ := pyGet_cases vs (top - 1)
    · obtain ⟨k3, k4, -⟩ | ⟨_, k⟩ := pyGet_cases vs top
      · omega
      · rw [h2] at k; cases k
    · rw [h1] at k; cases k
  | round h1 h2 h3 h4 ih =>
    intro t ht
    have := ih t ht
    omega
  | raise₁ _ => rintro t ⟨⟩
  | raise₂ _ _ => rintro t ⟨⟩

theorem pySet_ok {α : Type} (l : List α) {i : ℤ} (a : α) (h1 : -(l.length : ℤ) ≤ i) (h2 : i < l.length) :
    pySet l i a = .ok (l.set (if i < 0 then i + l.length else i).toNat a) := by
  unfold pySet
  dsimp only
  rw [if_neg]
  split_ifs <;> omega

/-- The model of the `for` loop is its execution. -/
theorem grahamFor_forTop : ∀ (is : List ℕ) (vs : List (Vec K)) (top : ℤ), (∀ i ∈ is, i < vs.length) → top < vs.length →
    ForTop is vs top (grahamFor is vs top) := by
  intro is
  induction is with
  | nil => exact fun vs top _ _ => .done
  | cons i is ih =>
    intro vs top hi ht
    have hil := hi i List.mem_cons_self
    have hw := fun p => grahamWhile_whileTop vs p (2 * vs.length + 2) top (by push_cast; omega)
    unfold grahamFor
    rw [pyGet_nat vs i hil, except_ok_bind]
    cases hr : grahamWhile vs vs[i] (2 * vs.length + 2) top with
    | error e => exact .raise₂ (pyGet_nat vs i hil) (hr ▸ hw _)
    | ok t =>
      have hwt := hr ▸ hw vs[i]
      have hle := hwt.le t rfl
      rw [except_ok_bind]
      dsimp only
      cases hq : pyGet vs (t + 1) with
      | error e => exact .raise₃ (pyGet_nat vs i hil) hwt hq
      | ok q =>
        have ht1 : t + 1 < vs.length := by
          obtain ⟨_, k, -⟩ | ⟨_, k⟩ := pyGet_cases vs (t + 1)
          · exact k
          · rw [hq] at k; cases k
        have e1 := pySet_ok vs vs[i] (i := t + 1) (by omega) ht1
        have e2 := pySet_nat (vs.set (if t + 1 < 0 then t + 1 + vs.length else t + 1).toNat vs[i]) i q (by simpa using hil)
        simp only [except_ok_bind, e1, e2]
        refine .round (pyGet_nat vs i hil) hwt hq e1 e2 (ih _ _ ?_ ?_)
        · intro k hk; simpa using hi k (List.mem_cons_of_mem _ hk)
        · simpa using ht1

theorem ForTop.unique {is : List ℕ} {vs : List (Vec K)} {top : ℤ} {r s : Except PyErr (List (Vec K) × ℤ)} (h : ForTop is vs top r)
    (k : ForTop is vs top s) : r = s := by
  induction h with
  | done => cases k; rfl
  | raise₁ h1 =>
    cases k with
    | raise₁ k1 => rw [h1] at k1; cases k1; rfl
    | raise₂ k1 k2 => rw [h1] at k1; cases k1
    | raise₃ k1 k2 k3 => rw [h1] at k1; cases k1
    | round k1 k2 k3 k4 k5 k6 => rw [h1] at k1; cases k1
  | raise₂ h1 h2 =>
    cases k with
    | raise₁ k1 => rw [h1] at k1; cases k1
    | raise₂ k1 k2 => rw [h1] at k1; cases k1; cases h2.unique k2; rfl
    | raise₃ k1 k2 k3 => rw [h1] at k1; cases k1; cases h2.unique k2
    | round k1 k2 k3 k4 k5 k6 => rw [h1] at k1; cases k1; cases h2.unique k2
  | raise₃ h1 h2 h3 =>
    cases k with
    | raise₁ k1 => rw [h1] at k1; cases k1
    | raise₂ k1 k2 => rw [h1] at k1; cases k1; cases h2.unique k2
    | raise₃ k1 k2 k3 => rw [h1] at k1; cases k1; cases h2.unique k2; rw [h3] at k3; cases k3; rfl
    | round k1 k2 k3 k4 k5 k6 => rw [h1] at k1; cases k1; cases h2.unique k2; rw [h3] at k3; cases k3
  | round h1 h2 h3 h4 h5 h6 ih =>
    cases k with
    | raise₁ k1 => rw [h1] at k1; cases k1
    | raise₂ k1 k2 => rw [h1] at k1; cases k1; cases h2.unique k2
    | raise₃ k1 k2 k3 => rw [h1] at k1; cases k1; cases h2.unique k2; rw [h3] at k3; cases k3
    | round k1 k2 k3 k4 k5 k6 =>
      rw [h1] at k1; cases k1; cases h2.unique k2; rw [h3] at k3; cases k3; rw [h4] at k4; cases k4; rw [h5] at k5; cases k5
      exact ih k6

/-- Points no two of which stop the loop of the Graham scan from ending. -/
def ApartK (vs : List (Vec K)) : Prop := vs.Pairwise (fun a b => isClockwise a b a = true ∧ isClockwise b a b = true)

theorem ApartK.perm {vs ws : List (Vec K)} (h : ApartK vs) (hp : vs.Perm ws) : ApartK ws :=
  hp.pairwise h (fun h => ⟨h.2, h.1⟩)

theorem ApartK.get {vs : List (Vec K)} (h : ApartK vs) {i j : ℕ} (hi : i < vs.length) (hj : j < vs.length) (hij : i ≠ j) :
    isClockwise vs[i] vs[j] vs[i] = true := by
  rcases lt_or_gt_of_ne hij with c | c
  · exact (List.pairwise_iff_getElem.mp h i j hi hj c).1
  · exact (List.pairwise_iff_getElem.mp h j i hj hi c).2

theorem pyGet_norm {α : Type} (l : List α) {i : ℤ} (h1 : -(l.length : ℤ) ≤ i) (h2 : i < l.length) :
    ∃ (k : ℕ) (hk : k < l.length), (k : ℤ) = (if i < 0 then i + l.length else i) ∧ pyGet l i = .ok l[k] := by
  unfold pyGet
  dsimp only
  refine ⟨(if i < 0 then i + (l.length : ℤ) else i).toNat, by split_ifs <;> omega, by split_ifs <;> omega, ?_⟩
  rw [if_neg (by split_ifs <;> omega), List.getElem?_eq_getElem (by split_ifs <;> omega)]

/-- The `while` loop ends without an exception if some index that is reached stops it. -/
theorem whileTop_ok (vs : List (Vec K)) (p : Vec K) (s : ℤ) (hs : -(vs.length : ℤ) < s) {a b : Vec K}
    (ha : pyGet vs (s - 1) = .ok a) (hb : pyGet vs s = .ok b) (hc : isClockwise a b p = true) :
    ∀ (n : ℕ), s + n < vs.length → ∃ t, s ≤ t ∧ t ≤ s + n ∧ WhileTop vs p (s + n) (.ok t) := by
  intro n
  induction n with
  | zero =>
    intro _
    rw [Nat.cast_zero, add_zero]
    exact ⟨s, le_refl _, le_refl _, .stop ha hb hc⟩
  | succ n ih =>
    intro hn
    push_cast at hn ⊢
    obtain ⟨t, h1, h2, h3⟩ := ih (by omega)
    obtain ⟨k, hk, _, e1⟩ := pyGet_norm vs (i := s + (n + 1) - 1) (by omega) (by omega)
    obtain ⟨m, hm, _, e2⟩ := pyGet_norm vs (i := s + (n + 1)) (by omega) (by omega)
    by_cases c : isClockwise vs[k] vs[m] p = true
    · exact ⟨_, by omega, le_refl _, .stop e1 e2 c⟩
    · refine ⟨t, h1, by omega, .round e1 e2 (by simpa using c) ?_⟩
      rwa [show s + ((n : ℤ) + 1) - 1 = s + n by ring]

/-- The `for` loop ends without an exception, having permuted the list, with `top` at least 1. -/
theorem forTop_ok (n : ℕ) (hn : 2 ≤ n) : ∀ (k : ℕ) (vs : List (Vec K)) (top : ℤ), k ≤ n - 2 → vs.length = n → ApartK vs →
    (n - k : ℤ) + 1 - n ≤ top → top ≤ (n - k : ℤ) - 1 →
    ∃ ws t, ForTop (List.range' (n - k) k) vs top (.ok (ws, t)) ∧ ws.Perm vs ∧ 1 ≤ t ∧ t < n := by
  intro k
  induction k with
  | zero =>
    intro vs top _ hl _ h1 h2
    exact ⟨vs, top, .done, .refl _, by push_cast at *; omega, by push_cast at *; omega⟩
  | succ k ih =>
    intro vs top hk hl hd h1 h2
    rw [List.range'_succ]
    have hi : n - (k + 1) < vs.length := by omega
    -- the point is compared with its successor
    obtain ⟨a, ha, ea, e1⟩ := pyGet_norm vs (i := ((n - (k + 1) : ℕ) : ℤ) + 1 - n - 1) (by omega) (by omega)
    obtain ⟨b, hb, eb, e2⟩ := pyGet_norm vs (i := ((n - (k + 1) : ℕ) : ℤ) + 1 - n) (by omega) (by omega)
    have haa : a = n - (k + 1) := by split_ifs at ea <;> omega
    have hab : n - (k + 1) ≠ b := by split_ifs at eb <;> omega
    subst haa
    obtain ⟨t, t1, t2, t3⟩ := whileTop_ok vs vs[n - (k + 1)] (((n - (k + 1) : ℕ) : ℤ) + 1 - n) (by omega) e1 e2 (hd.get hi hb hab)
      (top - (((n - (k + 1) : ℕ) : ℤ) + 1 - n)).toNat (by push_cast at h1 h2; omega)
    rw [Int.toNat_of_nonneg (by push_cast at h1 h2; omega), add_sub_cancel] at t3
    rw [Int.toNat_of_nonneg (by push_cast at h1 h2; omega), add_sub_cancel] at t2
    obtain ⟨q, hq, eq, e3⟩ := pyGet_norm vs (i := t + 1) (by omega) (by push_cast at h2; omega)
    have s1 := pySet_ok vs vs[n - (k + 1)] (i := t + 1) (by omega) (by push_cast at h2; omega)
    rw [← eq, Int.toNat_natCast] at s1
    have s2 := pySet_nat (vs.set q vs[n - (k + 1)]) (n - (k + 1)) vs[q] (by simpa using hi)
    have hp : ((vs.set q vs[n - (k + 1)]).set (n - (k + 1)) vs[q]).Perm vs := List.set_set_perm hq hi
    obtain ⟨ws, t', w1, w2, w3, w4⟩ := ih ((vs.set q vs[n - (k + 1)]).set (n - (k + 1)) vs[q]) (t + 1) (by omega) (by simpa using hl)
      (hd.perm hp.symm) (by push_cast at h1 h2 t1 ⊢; omega) (by push_cast at h1 h2 t1 ⊢; omega)
    refine ⟨ws, t', .round (pyGet_nat vs _ hi) t3 e3 s1 s2 ?_, w2.trans hp, w3, w4⟩
    rwa [show n - (k + 1) + 1 = n - k by omega]

theorem ForTop.perm {is : List ℕ} {vs : List (Vec K)} {top : ℤ} {r : Except PyErr (List (Vec K) × ℤ)} (h : ForTop is vs top r) :
    ∀ ws t, r = .ok (ws, t) → ws.Perm vs := by
  induction h with
  | done => rintro ws t ⟨⟩; rfl
  | raise₁ _ => rintro ws t ⟨⟩
  | raise₂ _ _ => rintro ws t ⟨⟩
  | raise₃ _ _ _ => rintro ws t ⟨⟩
  | @round i is vs top p top' q vs₁ vs₂ r h1 h2 h3 h4 h5 h6 ih =>
    intro ws t hr
    refine (ih ws t hr).trans ?_
    have b1 : -(vs.length : ℤ) ≤ top' + 1 ∧ top' + 1 < vs.length := by
      obtain ⟨k1, k2, -⟩ | ⟨_, k⟩ := pyGet_cases vs (top' + 1)
      · exact ⟨k1, k2⟩
      · rw [h3] at k; cases k
    have b2 : i < vs.length := by
      obtain ⟨k1, k2, -⟩ | ⟨_, k⟩ := pyGet_cases vs (i : ℕ)
      · omega
      · rw [h1] at k; cases k
    obtain ⟨k, hk, ek, e⟩ := pyGet_norm vs b1.1 b1.2
    rw [pyGet_nat vs i b2] at h1
    rw [e] at h3
    rw [pySet_ok vs p b1.1 b1.2, ← ek, Int.toNat_natCast] at h4
    cases h1; cases h3; cases h4
    rw [pySet_nat _ i _ (by simpa using b2)] at h5
    cases h5
    exact List.set_set_perm hk b2

theorem sortFrom_perm_any (srt : (Vec K → Vec K → Bool) → List (Vec K) → List (Vec K)) (hs : ∀ lt l, (srt lt l).Perm l)
    (pts : List (Vec K)) (i : ℕ) : (sortFrom srt pts i).Perm pts := by
  unfold sortFrom
  split_ifs with h
  · rfl
  · refine (hs _ _).trans ?_
    have h0 : 0 < pts.length := by omega
    have hi : i < pts.length := by omega
    have a0 : at' pts 0 = pts[0] := by simp [at', List.getD_eq_getElem?_getD, h0]
    have ai : at' pts i = pts[i] := by simp [at', List.getD_eq_getElem?_getD, hi]
    rw [a0, ai]
    exact List.set_set_perm h0 hi

/-- The Graham scan as the model has it, with checked edges. -/
theorem runGraham_iff (srt) (hs : ∀ lt l, (srt lt l).Perm l) (h : Obj K) (hr : ∀ v ∈ h.clearResults.input, v.eq v = true)
    (r : Except PyErr (Obj K)) : RunGraham srt h r ↔ r = graham srt h := by
  have hperm := sortFrom_perm_any srt hs h.clearResults.input (minPointIndex h.clearResults.input).toNat
  have hE := (minPointIndexE_of h.clearResults.input).1
  have hself : RunGraham srt h (graham srt h) := by
    unfold graham
    dsimp only
    by_cases hn : (decide (h.clearResults.input.length < 3) || minPointIndex h.clearResults.input == -1) = true
    · rw [if_pos hn]
      exact .few hE (by simpa using hn)
    · rw [if_neg hn]
      have hn' : ¬ (h.clearResults.input.length < 3 ∨ minPointIndex h.clearResults.input = -1) := by simpa using hn
      have hl := hperm.length_eq
      have hft := grahamFor_forTop (List.range' 2 (h.clearResults.input.length - 2))
        (sortFrom srt h.clearResults.input (minPointIndex h.clearResults.input).toNat) 1
        (by intro i hi; rw [List.mem_range'_1] at hi; omega) (by omega)
      cases hf : grahamFor (List.range' 2 (h.clearResults.input.length - 2))
        (sortFrom srt h.clearResults.input (minPointIndex h.clearResults.input).toNat) 1 with
      | error e => rw [hf] at hft; exact .raise₂ hE hn' hft
      | ok q =>
        obtain ⟨ws, t⟩ := q
        rw [hf] at hft
        have hed : hullEdgesE (pyDelFrom ws (t + 1)) = .ok (hullEdges (pyDelFrom ws (t + 1))) := by
          by_cases hne : pyDelFrom ws (t + 1) = []
          · rw [hne]; rfl
          · rw [hullEdgesE_of _ hne, if_pos]
            refine hr _ (hperm.mem_iff.mp ((hft.perm ws t rfl).mem_iff.mp ?_))
            exact List.mem_of_mem_take (List.getLast_mem hne)
        have := RunGraham.rest hE hn' hft
        dsimp only at this
        rw [hed] at this
        exact this
  refine ⟨fun h' => ?_, fun h' => h' ▸ hself⟩
  have huni : ∀ {r s}, RunGraham srt h r → RunGraham srt h s → r = s := by
    intro r s h1 h2
    cases h1 with
    | raise₁ a => rw [hE] at a; cases a
    | few a b =>
      cases h2 with
      | raise₁ c => rw [hE] at c; cases c
      | few c d => rfl
      | raise₂ c d e => rw [a] at c; cases c; exact absurd b d
      | rest c d e => rw [a] at c; cases c; exact absurd b d
    | raise₂ a b f =>
      cases h2 with
      | raise₁ c => rw [hE] at c; cases c
      | few c d => rw [a] at c; cases c; exact absurd d b
      | raise₂ c d e => rw [a] at c; cases c; cases f.unique e; rfl
      | rest c d e => rw [a] at c; cases c; cases f.unique e
    | rest a b f =>
      cases h2 with
      | raise₁ c => rw [hE] at c; cases c
      | few c d => rw [a] at c; cases c; exact absurd d b
      | raise₂ c d e => rw [a] at c; cases c; cases f.unique e
      | rest c d e => rw [a] at c; cases c; cases f.unique e; rfl
  exact huni h' hself

/-- The Graham scan returns if no two points prevent it. -/
theorem graham_apart (srt) (hs : ∀ lt l, (srt lt l).Perm l) (h : Obj K) (hr : ∀ v ∈ h.clearResults.input, v.eq v = true)
    (hd : ApartK h.clearResults.input) : ∃ h', RunGraham srt h (.ok h') ∧ graham srt h = .ok h' := by
  suffices H : ∃ h', RunGraham srt h (.ok h') by
    obtain ⟨h', hh⟩ := H
    exact ⟨h', hh, ((runGraham_iff srt hs h hr _).mp hh).symm⟩
  have hperm := sortFrom_perm_any srt hs h.clearResults.input (minPointIndex h.clearResults.input).toNat
  have hE := (minPointIndexE_of h.clearResults.input).1
  by_cases hn : h.clearResults.input.length < 3 ∨ minPointIndex h.clearResults.input = -1
  · exact ⟨_, .few hE hn⟩
  · have hl := hperm.length_eq
    obtain ⟨ws, t, w1, w2, w3, w4⟩ := forTop_ok h.clearResults.input.length (by omega) (h.clearResults.input.length - 2) _ 1 (le_refl _) hl
      (hd.perm hperm.symm) (by omega) (by omega)
    rw [show h.clearResults.input.length - (h.clearResults.input.length - 2) = 2 by omega] at w1
    have := RunGraham.rest hE hn w1
    have hlen : (pyDelFrom ws (t + 1)).length = (t + 1).toNat := by
      unfold pyDelFrom
      rw [if_neg (by omega), List.length_take]
      have := w2.length_eq
      omega
    have hne : pyDelFrom ws (t + 1) ≠ [] := by
      intro e; rw [e] at hlen; simp at hlen; omega
    have hed : hullEdgesE (pyDelFrom ws (t + 1)) = .ok (hullEdges (pyDelFrom ws (t + 1))) := by
      rw [hullEdgesE_of _ hne, if_pos]
      refine hr _ (hperm.mem_iff.mp (w2.mem_iff.mp ?_))
      exact List.mem_of_mem_take (List.getLast_mem hne)
    obtain ⟨_, _, _, e0⟩ := pyGet_norm (pyDelFrom ws (t + 1)) (i := 0) (by omega) (by omega)
    dsimp only at this
    rw [hed, except_ok_bind, e0, except_ok_bind, pyGet_neg_one _ hne, except_ok_bind] at this
    exact ⟨_, this⟩

end generic

/-- **C164** The Graham scan ends on every list of points, with a result or an exception, and the model gives it: the bound on the
number of rounds in `grahamWhile` is never reached. -/
theorem C164_graham_ends (srt) (hs : ∀ lt l, (srt lt l).Perm l) (h : Obj ℝ) :
    (∃! r, RunGraham srt h r) ∧ RunGraham srt h (graham srt h) := by
  have H := fun r => runGraham_iff srt hs h (fun v _ => by simp [Vec.eq]) r
  exact ⟨⟨_, (H _).mpr rfl, fun r hr => (H r).mp hr⟩, (H _).mpr rfl⟩

/-- **C164** The list operations that the Graham scan uses. A negative index counts from the end, an index outside raises
`IndexError`, and `del l[i:len(l)]` keeps the elements before the place that `i` denotes and never raises. -/
theorem C164_lists {α : Type} (l : List α) (a : α) :
    (∀ (k : ℕ) (hk : k < l.length), pyGet l k = .ok l[k] ∧ pyGet l (k - l.length) = .ok l[k] ∧
      pySet l k a = .ok (l.set k a) ∧ pySet l (k - l.length) a = .ok (l.set k a) ∧
      pyDelFrom l k = l.take k ∧ pyDelFrom l (k - l.length) = l.take k) ∧
    (∀ i : ℤ, (l.length : ℤ) ≤ i ∨ i < -l.length → pyGet l i = .error .indexError ∧ pySet l i a = .error .indexError) ∧
    (∀ i : ℤ, (l.length : ℤ) ≤ i → pyDelFrom l i = l) ∧ (∀ i : ℤ, i < -l.length → pyDelFrom l i = []) := by
  refine ⟨fun k hk => ?_, fun i hi => ?_, fun i hi => ?_, fun i hi => ?_⟩
  · have h1 : ¬ ((k : ℤ) < 0) := by omega
    have h2 : (k : ℤ) - l.length < 0 := by omega
    have h3 : (k : ℤ) - l.length + l.length = k := by omega
    have h4 : ¬ ((k : ℤ) < 0 ∨ (l.length : ℤ) ≤ k) := by omega
    simp only [pyGet, pySet, pyDelFrom, if_neg h1, if_pos h2, h3, if_neg h4, Int.toNat_natCast, List.getElem?_eq_getElem hk,
      and_self]
  · have h1 : pyGet l i = .error .indexError ∧ pySet l i a = .error .indexError := by
      rcases hi with hi | hi
      · have h1 : ¬ (i < 0) := by omega
        have h2 : l[i.toNat]? = none := List.getElem?_eq_none (by omega)
        have h3 : i < 0 ∨ (l.length : ℤ) ≤ i := Or.inr hi
        simp only [pyGet, pySet, if_neg h1, h2, if_pos h3, and_self]
      · have h1 : i < 0 := by omega
        have h2 : i + l.length < 0 := by omega
        simp only [pyGet, pySet, if_pos h1, if_pos h2, if_pos (Or.inl h2), and_self]
    exact h1
  · have h1 : ¬ (i < 0) := by omega
    simp only [pyDelFrom, if_neg h1]
    exact List.take_of_length_le (by omega)
  · have h1 : i < 0 := by omega
    have h2 : (i + l.length).toNat = 0 := by omega
    simp only [pyDelFrom, if_pos h1, h2, List.take_zero]

example : pySet [1, 2, 3] (-1) 7 = .ok [1, 2, 7] := by simpa using ((C164_lists [1, 2, 3] 7).1 2 (by simp)).2.2.2.1

/-- **C164** refuted for the Graham scan: on a list of equal points, at least three, it raises `IndexError`, whatever the sort does. -/
theorem C164_refuted_graham (srt) (hs : ∀ lt l, (srt lt l).Perm l) (v : Vec ℝ) (n : ℕ) (hn : 3 ≤ n) :
    RunGraham srt (Obj.ofList (List.replicate n v)) (.error .indexError) := by
  have hcl : (Obj.ofList (List.replicate n v)).clearResults = Obj.ofList (List.replicate n v) :=
    clearResults_input (h := Obj.ofList (List.replicate n v)) rfl
  have hin : (Obj.ofList (List.replicate n v)).clearResults.input = List.replicate n v := by rw [hcl]; rfl
  have hE := (minPointIndexE_of (Obj.ofList (List.replicate n v)).clearResults.input)
  have hsort : sortFrom srt (Obj.ofList (List.replicate n v)).clearResults.input
      (minPointIndex (Obj.ofList (List.replicate n v)).clearResults.input).toNat = List.replicate n v := by
    rw [hin]
    exact List.perm_replicate.mp (sortFrom_perm_any srt hs _ _)
  refine .raise₂ hE.1 ?_ ?_
  · have hne : (Obj.ofList (List.replicate n v)).clearResults.input ≠ [] := by
      rw [hin]; intro e; have := congrArg List.length e; simp at this; omega
    have := hE.2 hne
    rw [hin] at this ⊢
    simp only [List.length_replicate] at this ⊢
    omega
  · rw [hsort, hin, List.length_replicate, show n - 2 = (n - 3) + 1 by omega, List.range'_succ]
    have hget : ∀ i : ℤ, -(n : ℤ) ≤ i → i < n → pyGet (List.replicate n v) i = .ok v := by
      intro i h1 h2
      obtain ⟨k, hk, _, e⟩ := pyGet_norm (List.replicate n v) (i := i) (by simpa using h1) (by simpa using h2)
      rw [e, List.getElem_replicate]
    have hcw : isClockwise v v v = false := by
      simp [isClockwise, Tri.dsa, Vec.dist2, PyrusGeom.sq]
    have hw : ∀ (k : ℕ) (top : ℤ), top = -(n : ℤ) + k → top < n → WhileTop (List.replicate n v) v top (.error .indexError) := by
      intro k
      induction k with
      | zero =>
        intro top ht _
        refine .raise₁ ?_
        obtain ⟨k1, -⟩ | ⟨_, k⟩ := pyGet_cases (List.replicate n v) (top - 1)
        · simp only [List.length_replicate] at k1; push_cast at ht; omega
        · exact k
      | succ k ih =>
        intro top ht htn
        push_cast at ht
        exact .round (hget _ (by omega) (by omega)) (hget _ (by omega) htn) hcw (ih (top - 1) (by omega) (by omega))
    exact .raise₂ (hget _ (by omega) (by push_cast; omega)) (hw (n + 1) 1 (by push_cast; omega) (by omega))

/-- The assumption on the sort holds for the function that leaves the list as it is. -/
example : RunGraham (fun _ l => l) (Obj.ofList [⟨1, 2, true⟩, ⟨1, 2, true⟩, (⟨1, 2, true⟩ : Vec ℝ)]) (.error .indexError) :=
  C164_refuted_graham _ (fun _ _ => .refl _) ⟨1, 2, true⟩ 3 (le_refl _)

/-- **C164** Gift wrapping and the direct method do not raise in exact arithmetic, for any points. -/
theorem C164_real (srt) (h : Obj ℝ) : wrappingE h = .ok (wrapping h) ∧ directE srt h = .ok (direct srt h) :=
  ⟨(C164_wrapping_any h).1 fun v _ => by simp [Vec.eq], C164_direct_any srt h⟩

/-- **C164** (partial: no two points are equal). The Graham scan does not raise, whatever the sort does. -/
theorem C164_graham_partial (srt) (hs : ∀ lt l, (srt lt l).Perm l) (h : Obj ℝ) (hd : (h.clearResults.input.map Vec.pt).Nodup) :
    ∃ h', RunGraham srt h (.ok h') ∧ graham srt h = .ok h' := by
  refine graham_apart srt hs h (fun v _ => by simp [Vec.eq]) ?_
  have key : ∀ a b : Vec ℝ, a.pt ≠ b.pt → isClockwise a b a = true := by
    intro a b hab
    have hne : a.x ≠ b.x ∨ a.y ≠ b.y := by
      by_contra hc
      push Not at hc
      exact hab (Prod.ext hc.1 hc.2)
    have h0 : (0 : ℝ) < (a.x - b.x) ^ 2 + (a.y - b.y) ^ 2 := by
      rcases hne with c | c
      · have := sq_pos_of_ne_zero (sub_ne_zero.mpr c); positivity
      · have := sq_pos_of_ne_zero (sub_ne_zero.mpr c); positivity
    simp only [isClockwise, Tri.dsa, Vec.dist2, PyrusGeom.sq, num_real, sub_self, zero_mul, mul_zero, add_zero, Nat.cast_zero,
      lt_self_iff_false, decide_false, Bool.false_or, Bool.and_eq_true, decide_eq_true_eq, EPSILON_pos, true_and]
    nlinarith [h0]
  exact (List.pairwise_map.mp hd).imp fun hab => ⟨key _ _ hab, key _ _ (Ne.symm hab)⟩

/-- **C164** Doubles: gift wrapping and the direct method do not raise. -/
theorem C164_double (srt) (h : Obj (FP double)) : wrappingE h = .ok (wrapping h) ∧ directE srt h = .ok (direct srt h) :=
  ⟨(C164_wrapping_any h).1 fun v _ => by simp [Vec.eq, BEq.beq], C164_direct_any srt h⟩

/-- **C164** (partial: any two points are at least 2^-537 apart in some coordinate). Doubles: the Graham scan does not raise, whatever
the sort does. -/
theorem C164_graham_double_partial (srt) (hs : ∀ lt l, (srt lt l).Perm l) (h : Obj (FP double))
    (hd : h.clearResults.input.Pairwise fun a b =>
      (2 : ℝ) ^ (-537 : ℤ) ≤ |a.x.val - b.x.val| ∨ (2 : ℝ) ^ (-537 : ℤ) ≤ |a.y.val - b.y.val|) :
    ∃ h', RunGraham srt h (.ok h') ∧ graham srt h = .ok h' := by
  refine graham_apart srt hs h (fun v _ => by simp [Vec.eq, BEq.beq]) ?_
  have sqpos : ∀ x y : ℝ, (2 : ℝ) ^ (-537 : ℤ) ≤ |x - y| → 0 < rne (rne (x - y) * rne (x - y)) := by
    intro x y hxy
    have h1 : (2 : ℝ) ^ (-537 : ℤ) ≤ |rne (x - y)| := by
      rcases le_total 0 (x - y) with c | c
      · rw [abs_of_nonneg c] at hxy
        have := rne_mono hxy
        rw [rne_of_isDouble (isDouble_pow _ (by norm_num))] at this
        exact this.trans (le_abs_self _)
      · rw [abs_of_nonpos c] at hxy
        have := rne_mono hxy
        rw [rne_of_isDouble (isDouble_pow _ (by norm_num)), rne_neg] at this
        exact this.trans (neg_le_abs _)
    have h2 : (2 : ℝ) ^ (-1074 : ℤ) ≤ rne (x - y) * rne (x - y) := by
      rw [← abs_mul_abs_self, show (-1074 : ℤ) = -537 + -537 by norm_num, zpow_add₀ two_ne_zero]
      exact mul_le_mul h1 h1 (by positivity) (abs_nonneg _)
    have := rne_mono h2
    rw [rne_of_isDouble (isDouble_pow _ (by norm_num))] at this
    exact lt_of_lt_of_le (by positivity) this
  have sqnn : ∀ x : ℝ, 0 ≤ rne (x * x) := fun x => rne_nonneg' (mul_self_nonneg x)
  have key : ∀ a b : Vec (FP double), ((2 : ℝ) ^ (-537 : ℤ) ≤ |a.x.val - b.x.val| ∨ (2 : ℝ) ^ (-537 : ℤ) ≤ |a.y.val - b.y.val|) →
      isClockwise a b a = true := by
    intro a b hab
    have hd0 : (Tri.dsa a b a).val = 0 := by
      change rne (rne (rne (a.x.val - a.x.val) * rne (b.y.val - a.y.val)) + rne (rne (b.x.val - a.x.val) * rne (a.y.val - a.y.val))) = 0
      simp [rne_zero]
    have haa : (a.dist2 a).val = 0 := by
      change rne (rne (rne (a.x.val - a.x.val) * rne (a.x.val - a.x.val)) + rne (rne (a.y.val - a.y.val) * rne (a.y.val - a.y.val))) = 0
      simp [rne_zero]
    have hab' : 0 < (a.dist2 b).val := by
      change 0 < rne (rne (rne (a.x.val - b.x.val) * rne (a.x.val - b.x.val)) + rne (rne (a.y.val - b.y.val) * rne (a.y.val - b.y.val)))
      rcases hab with c | c
      · refine lt_of_lt_of_le (sqpos _ _ c) ?_
        have := rne_mono (show rne (rne (a.x.val - b.x.val) * rne (a.x.val - b.x.val)) ≤ _ from le_add_of_nonneg_right (sqnn (rne (a.y.val - b.y.val))))
        rwa [rne_of_isDouble (isDouble_rne _)] at this
      · refine lt_of_lt_of_le (sqpos _ _ c) ?_
        have := rne_mono (show rne (rne (a.y.val - b.y.val) * rne (a.y.val - b.y.val)) ≤ _ from le_add_of_nonneg_left (sqnn (rne (a.x.val - b.x.val))))
        rwa [rne_of_isDouble (isDouble_rne _)] at this
    have hlt : Tri.dsa a b a < (EPSILON : FP double) := by
      change (Tri.dsa a b a).val < _
      rw [hd0]; exact fp_EPSILON.1
    have hlt2 : a.dist2 a < a.dist2 b := by
      change (a.dist2 a).val < _
      rw [haa]; exact hab'
    unfold isClockwise
    dsimp only
    rw [decide_eq_true hlt, decide_eq_true hlt2]
    simp
  exact hd.imp fun hab => ⟨key _ _ hab, key _ _ (hab.imp (fun h => by rwa [abs_sub_comm]) fun h => by rwa [abs_sub_comm])⟩

/-- **C164** Special values: without NaN gift wrapping does not raise; if all points have a NaN coordinate, it does. -/
theorem C164_refuted_nan (h : Obj Ieee) :
    ((∀ v ∈ h.clearResults.input, ¬ v.HasNan) → wrappingE h = .ok (wrapping h)) ∧
    (3 ≤ h.clearResults.input.length → (∀ v ∈ h.clearResults.input, v.HasNan) → wrappingE h = .error .indexError) := by
  have e1 : ∀ v : Vec Ieee, ¬ v.HasNan → v.eq v = true := fun v => (C130_eq_partial v).mpr
  have e2 : ∀ v : Vec Ieee, v.HasNan → v.eq v = false := fun v hv => by
    rw [← Bool.not_eq_true, C130_eq_partial]; exact not_not.mpr hv
  obtain ⟨h1, -, h3⟩ := C164_wrapping_any h
  exact ⟨fun hh => h1 fun v hv => e1 v (hh v hv), fun hn hh => h3 hn fun v hv => e2 v (hh v hv)⟩

end Hull

end PyrusGeom
