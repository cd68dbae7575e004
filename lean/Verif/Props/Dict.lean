import Verif.Model.Dict
import Verif.Props.PyEq
import Verif.Props.Vector
import Mathlib.Data.Set.Card

/-! # C166: hashing, dictionaries and sets -/

namespace PyrusGeom
open Spec

theorem EqObj.pyEq_true {a b : EqObj ℝ} (h : EqObj.pyEq a b = .ok true) :
    EqObj.ownEq a b = .ok (some true) ∨ (EqObj.ownEq a b = .ok none ∧ EqObj.ownEq b a = .ok (some true)) := by
  unfold EqObj.pyEq at h
  cases h1 : EqObj.ownEq a b with
  | error e => rw [h1] at h; cases h
  | ok r =>
    rw [h1] at h
    cases r with
    | some x => left; cases h; rfl
    | none =>
      right
      refine ⟨rfl, ?_⟩
      change (do match ← EqObj.ownEq b a with | some r => .ok r | none => .ok false) = Except.ok true at h
      cases h2 : EqObj.ownEq b a with
      | error e => rw [h2] at h; cases h
      | ok r =>
        rw [h2] at h
        cases r with
        | some x => cases h; rfl
        | none => cases h

theorem EqObj.hash_of_ownEq (H : PyHash ℝ) {a b : EqObj ℝ} (h : EqObj.ownEq a b = .ok (some true)) {x y : ℤ}
    (hx : a.hash H = .ok x) (hy : b.hash H = .ok y) : x = y := by
  cases a <;> first
    | cases hx <;> done
    | skip
  all_goals cases b <;> first
    | cases hy <;> done
    | cases h <;> done
    | skip
  all_goals cases hx; cases hy
  all_goals simp only [EqObj.ownEq, Except.ok.injEq, Option.some.injEq, reduceCtorEq, Bool.false_eq_true] at h
  · rw [beq_iff_eq] at h; rw [h]
  · rw [Vec.eq_iff] at h; unfold Vec.hash; rw [h.1, h.2]
  all_goals
    split at h
    · rename_i c; rw [c]
    · cases h

/-- **C166**, the contract of `hash`: two operands that compare equal and can be hashed have the same hash; what can be
hashed is exactly numbers, vectors, the classes compared by identity and foreign values. -/
theorem C166_hash (H : PyHash ℝ) (a b : EqObj ℝ) :
    (EqObj.pyEq a b = .ok true → ∀ x y, a.hash H = .ok x → b.hash H = .ok y → x = y) ∧
    ((∃ x, a.hash H = .ok x) ↔ (∃ x, a = .num x) ∨ (∃ v, a = .vec v) ∨ (∃ i c, a = .circle i c) ∨ (∃ i c, a = .rect i c) ∨
      (∃ i c, a = .tri i c) ∨ ∃ i, a = .other i) ∧
    (∀ e, a.hash H = .error e → e = .typeError) := by
  refine ⟨?_, ?_, ?_⟩
  · intro h x y hx hy
    rcases EqObj.pyEq_true h with h | ⟨_, h⟩
    · exact EqObj.hash_of_ownEq H h hx hy
    · exact (EqObj.hash_of_ownEq H h hy hx).symm
  · cases a <;> simp [EqObj.hash]
  · cases a <;> simp [EqObj.hash, eq_comm]

namespace DState
variable {V : Type}

/-- Specification of a program over vectors and one dictionary: the points of the objects, and a map from points to values. -/
noncomputable def specStep (s : List Pt × (Pt → Option V)) : Op ℝ V → List Pt × (Pt → Option V)
  | .new v => (s.1 ++ [v.pt], s.2)
  | .write a v => (s.1.set a v.pt, s.2)
  | .set a x => (s.1, fun p => if s.1[a]? = some p then some x else s.2 p)
  | .del a => (s.1, fun p => if s.1[a]? = some p then none else s.2 p)

/-- No object is changed after it was used as a key in an assignment. -/
def KeysFrozen (ops : List (Op ℝ V)) : Prop :=
  ops.Pairwise fun o o' => ∀ a x v, o = .set a x → o' ≠ .write a v

def keyPt (mem : List (Vec ℝ)) (e : DEntry V) : Option Pt := mem[e.key]?.map Vec.pt

structure Inv (hs : ℝ × ℝ → ℤ) (s : DState ℝ V) (f : Pt → Option V) : Prop where
  ok : ∀ e ∈ s.dict, ∃ w, s.mem[e.key]? = some w ∧ e.hash = w.hash hs
  nodup : (s.dict.map (keyPt s.mem)).Nodup
  val : ∀ p x, f p = some x ↔ ∃ e ∈ s.dict, keyPt s.mem e = some p ∧ e.val = x

theorem fits_iff {hs : ℝ × ℝ → ℤ} {s : DState ℝ V} {f} (h : Inv hs s f) {e} (he : e ∈ s.dict) {k v} (hk : s.mem[k]? = some v) :
    Fits hs s.mem e k v ↔ keyPt s.mem e = some v.pt := by
  obtain ⟨w, hw, hh⟩ := h.ok e he
  unfold keyPt Fits
  rw [hw]
  constructor
  · rintro ⟨_, h1 | ⟨u, hu, h1⟩⟩
    · rw [h1, hk] at hw; cases hw; rfl
    · cases hu
      rw [Vec.eq_iff] at h1
      simp [Vec.pt, h1.1, h1.2]
  · intro h1
    simp only [Option.map_some, Option.some.injEq, Vec.pt, Prod.mk.injEq] at h1
    refine ⟨by rw [hh]; unfold Vec.hash; rw [h1.1, h1.2], .inr ⟨w, rfl, ?_⟩⟩
    rw [Vec.eq_iff]; exact h1

theorem inv_step {hs : ℝ × ℝ → ℤ} {s t : DState ℝ V} {o : Op ℝ V} {f} (h : Inv hs s f) (st : Step hs s o t)
    (hw : ∀ a v, o = .write a v → ∀ e ∈ s.dict, e.key ≠ a) :
    t.mem.map Vec.pt = (specStep (s.mem.map Vec.pt, f) o).1 ∧ Inv hs t (specStep (s.mem.map Vec.pt, f) o).2 := by
  have hpt : ∀ {a : ℕ} {v : Vec ℝ}, s.mem[a]? = some v → ∀ p, ((s.mem.map Vec.pt)[a]? = some p) = (v.pt = p) := by
    intro a v hv p
    rw [List.getElem?_map, hv, Option.map_some, Option.some.injEq]
  cases st with
  | new v =>
    refine ⟨by simp [specStep], ?_⟩
    have hk : ∀ e ∈ s.dict, keyPt (s.mem ++ [v]) e = keyPt s.mem e := by
      intro e he
      obtain ⟨w, hw, _⟩ := h.ok e he
      have hl := (List.getElem?_eq_some_iff.mp hw).1
      unfold keyPt; rw [List.getElem?_append_left hl]
    refine ⟨fun e he => ?_, ?_, fun p x => ?_⟩
    · obtain ⟨w, hw, hh⟩ := h.ok e he
      exact ⟨w, by rw [List.getElem?_append_left (List.getElem?_eq_some_iff.mp hw).1]; exact hw, hh⟩
    · rw [List.map_congr_left hk]; exact h.nodup
    · rw [show (specStep (s.mem.map Vec.pt, f) (.new v)).2 p = f p from rfl, h.val]
      exact exists_congr fun e => and_congr_right fun he => by rw [hk e he]
  | write a v hl =>
    refine ⟨by simp [specStep, List.map_set], ?_⟩
    have hk' : ∀ e ∈ s.dict, (s.mem.set a v)[e.key]? = s.mem[e.key]? := fun e he => by
      rw [List.getElem?_set_ne (Ne.symm (hw a v rfl e he))]
    have hk : ∀ e ∈ s.dict, keyPt (s.mem.set a v) e = keyPt s.mem e := fun e he => by
      unfold keyPt; rw [hk' e he]
    refine ⟨fun e he => ?_, ?_, fun p x => ?_⟩
    · obtain ⟨w, hw, hh⟩ := h.ok e he
      exact ⟨w, by rw [hk' e he]; exact hw, hh⟩
    · rw [List.map_congr_left hk]; exact h.nodup
    · rw [show (specStep (s.mem.map Vec.pt, f) (.write a v)).2 p = f p from rfl, h.val]
      exact exists_congr fun e => and_congr_right fun he => by rw [hk e he]
  | update a x v d₁ e d₂ hv hd hf =>
    refine ⟨rfl, ?_⟩
    have he : e ∈ s.dict := by rw [hd]; simp
    rw [fits_iff h he hv] at hf
    have hn := h.nodup
    have hok := h.ok
    have hval := h.val
    rw [hd] at hn hok hval
    refine ⟨?_, ?_, ?_⟩
    · intro e' he'
      simp only [List.mem_append, List.mem_cons] at he' hok
      rcases he' with he' | rfl | he'
      · exact hok _ (.inl he')
      · exact hok e (.inr (.inl rfl))
      · exact hok _ (.inr (.inr he'))
    · rw [List.map_append, List.map_cons] at hn ⊢
      exact hn
    · intro p y
      simp only [specStep, hpt hv]
      rw [List.map_append, List.map_cons, List.nodup_append, List.nodup_cons] at hn
      by_cases c : v.pt = p
      · rw [if_pos c]
        constructor
        · intro hy; cases hy
          exact ⟨{ e with val := x }, by simp, by rw [← c]; exact hf, rfl⟩
        · rintro ⟨e', he', k1, rfl⟩
          simp only [List.mem_append, List.mem_cons] at he'
          rw [← c, ← hf] at k1
          rcases he' with he' | rfl | he'
          · exact absurd k1 (hn.2.2 _ (List.mem_map_of_mem he') _ (by simp))
          · rfl
          · exact absurd (k1 ▸ List.mem_map_of_mem (f := keyPt s.mem) he') hn.2.1.1
      · rw [if_neg c, hval]
        constructor
        · rintro ⟨e', he', k1, k2⟩
          simp only [List.mem_append, List.mem_cons] at he'
          rcases he' with he' | rfl | he'
          · exact ⟨e', by simp [he'], k1, k2⟩
          · rw [hf] at k1; cases k1; exact absurd rfl c
          · exact ⟨e', by simp [he'], k1, k2⟩
        · rintro ⟨e', he', k1, k2⟩
          simp only [List.mem_append, List.mem_cons] at he'
          rcases he' with he' | rfl | he'
          · exact ⟨e', by simp [he'], k1, k2⟩
          · change keyPt s.mem e = _ at k1; rw [hf] at k1; cases k1; exact absurd rfl c
          · exact ⟨e', by simp [he'], k1, k2⟩
  | insert a x v hv hf =>
    refine ⟨rfl, ?_⟩
    have hk : keyPt s.mem (⟨v.hash hs, a, x⟩ : DEntry V) = some v.pt := by unfold keyPt; rw [hv]; rfl
    have hf' : ∀ e ∈ s.dict, keyPt s.mem e ≠ some v.pt := fun e he => by rw [Ne, ← fits_iff h he hv]; exact hf e he
    refine ⟨?_, ?_, ?_⟩
    · intro e he
      rcases List.mem_append.mp he with he | he
      · exact h.ok e he
      · rw [List.mem_singleton.mp he]; exact ⟨v, hv, rfl⟩
    · rw [List.map_append, List.nodup_append]
      refine ⟨h.nodup, by simp, ?_⟩
      rintro _ h1 _ h2 rfl
      obtain ⟨e, he, rfl⟩ := List.mem_map.mp h1
      simp only [List.map_cons, List.map_nil, List.mem_singleton] at h2
      exact hf' e he (h2.trans hk)
    · intro p y
      simp only [specStep, hpt hv, List.mem_append, List.mem_singleton]
      by_cases c : v.pt = p
      · rw [if_pos c]
        constructor
        · intro hy; cases hy; exact ⟨_, .inr rfl, by rw [← c]; exact hk, rfl⟩
        · rintro ⟨e, he | rfl, k1, rfl⟩
          · exact absurd (c ▸ k1) (hf' e he)
          · rfl
      · rw [if_neg c, h.val]
        constructor
        · rintro ⟨e, he, k⟩; exact ⟨e, .inl he, k⟩
        · rintro ⟨e, he | rfl, k⟩
          · exact ⟨e, he, k⟩
          · rw [hk] at k; exact absurd (Option.some.inj k.1) c
  | del a v d₁ e d₂ hv hd hf =>
    refine ⟨rfl, ?_⟩
    have he : e ∈ s.dict := by rw [hd]; simp
    rw [fits_iff h he hv] at hf
    have hn := h.nodup
    have hok := h.ok
    have hval := h.val
    rw [hd] at hn hok hval
    refine ⟨?_, ?_, ?_⟩
    · intro e' he'
      simp only [List.mem_append, List.mem_cons] at he' hok
      exact hok _ (he'.imp_right .inr)
    · exact hn.sublist (List.Sublist.map _ (List.Sublist.append_left (List.sublist_cons_self _ _) _))
    · intro p y
      simp only [specStep, hpt hv]
      rw [List.map_append, List.map_cons, List.nodup_append, List.nodup_cons] at hn
      by_cases c : v.pt = p
      · rw [if_pos c]
        constructor
        · intro hy; cases hy
        · rintro ⟨e', he', k1, rfl⟩
          rw [← c, ← hf] at k1
          rcases List.mem_append.mp he' with he' | he'
          · exact absurd k1 (hn.2.2 _ (List.mem_map_of_mem he') _ (by simp))
          · exact absurd (k1 ▸ List.mem_map_of_mem (f := keyPt s.mem) he') hn.2.1.1
      · rw [if_neg c, hval]
        constructor
        · rintro ⟨e', he', k1, k2⟩
          simp only [List.mem_append, List.mem_cons] at he'
          rcases he' with he' | rfl | he'
          · exact ⟨e', by simp [he'], k1, k2⟩
          · rw [hf] at k1; cases k1; exact absurd rfl c
          · exact ⟨e', by simp [he'], k1, k2⟩
        · rintro ⟨e', he', k1, k2⟩
          rcases List.mem_append.mp he' with he' | he'
          · exact ⟨e', by simp [he'], k1, k2⟩
          · exact ⟨e', by simp [he'], k1, k2⟩

theorem step_keys {hs : ℝ × ℝ → ℤ} {s t : DState ℝ V} {o : Op ℝ V} (st : Step hs s o t) :
    ∀ e ∈ t.dict, (∃ e' ∈ s.dict, e'.key = e.key) ∨ ∃ x, o = .set e.key x := by
  intro e he
  cases st with
  | new v => exact .inl ⟨e, he, rfl⟩
  | write a v hl => exact .inl ⟨e, he, rfl⟩
  | update a x v d₁ e₀ d₂ hv hd hf =>
    left
    rw [hd]
    simp only [List.mem_append, List.mem_cons] at he ⊢
    rcases he with he | rfl | he
    · exact ⟨e, .inl he, rfl⟩
    · exact ⟨e₀, .inr (.inl rfl), rfl⟩
    · exact ⟨e, .inr (.inr he), rfl⟩
  | insert a x v hv hf =>
    rcases List.mem_append.mp he with he | he
    · exact .inl ⟨e, he, rfl⟩
    · rw [List.mem_singleton.mp he]; exact .inr ⟨x, rfl⟩
  | del a v d₁ e₀ d₂ hv hd hf =>
    left
    rw [hd]
    simp only [List.mem_append, List.mem_cons] at he ⊢
    exact ⟨e, he.imp_right .inr, rfl⟩

theorem inv_run {hs : ℝ × ℝ → ℤ} {s t : DState ℝ V} {ops : List (Op ℝ V)} (r : Run hs s ops t) : ∀ {f}, Inv hs s f →
    KeysFrozen ops → (∀ e ∈ s.dict, ∀ v, Op.write e.key v ∉ ops) →
    t.mem.map Vec.pt = (ops.foldl specStep (s.mem.map Vec.pt, f)).1 ∧ Inv hs t (ops.foldl specStep (s.mem.map Vec.pt, f)).2 := by
  induction r with
  | nil s => intro f h _ _; exact ⟨rfl, h⟩
  | @cons s t u o os st _ ih =>
    intro f h hf hw
    obtain ⟨h1, h2⟩ := inv_step h st (by
      rintro a v rfl e he rfl
      exact hw e he v (by simp))
    have hp := List.pairwise_cons.mp hf
    have := ih h2 hp.2 (by
      intro e he v hm
      rcases step_keys st e he with ⟨e', he', hk⟩ | ⟨x, rfl⟩
      · exact hw e' he' v (by rw [hk]; exact List.mem_cons_of_mem _ hm)
      · exact hp.1 _ hm e.key x v rfl rfl)
    rw [h1] at this
    rw [List.foldl_cons]
    exact this

end DState

open DState

/-- **C166**, what holds of dictionaries: if no object is changed after it was used as a key, the dictionary is a map from
points: a key is found exactly if an object at the same point was assigned to and not deleted since, every fitting entry holds
the value assigned last, and there are as many entries as points. -/
theorem C166_dict_partial {V : Type} (hs : ℝ × ℝ → ℤ) (ops : List (Op ℝ V)) (t : DState ℝ V) (hr : Run hs ⟨[], []⟩ ops t)
    (hf : KeysFrozen ops) :
    t.mem.map Vec.pt = (ops.foldl specStep ([], fun _ => none)).1 ∧
    (∀ k v, t.mem[k]? = some v →
      ((∃ e ∈ t.dict, Fits hs t.mem e k v) ↔ (ops.foldl specStep ([], fun _ => none)).2 v.pt ≠ none) ∧
      ∀ e ∈ t.dict, Fits hs t.mem e k v → (ops.foldl specStep ([], fun _ => none)).2 v.pt = some e.val) ∧
    t.dict.length = {p | (ops.foldl specStep ([], fun _ => none)).2 p ≠ none}.ncard := by
  obtain ⟨h1, h2⟩ := inv_run hr (f := fun _ => none) ⟨by simp, by simp, by simp⟩ hf (by simp)
  simp only [List.map_nil] at h1 h2
  generalize (ops.foldl specStep ([], fun _ => none)) = g at *
  refine ⟨h1, fun k v hk => ⟨?_, ?_⟩, ?_⟩
  · rw [Option.ne_none_iff_exists']
    constructor
    · rintro ⟨e, he, h⟩
      exact ⟨e.val, (h2.val _ _).mpr ⟨e, he, (fits_iff h2 he hk).mp h, rfl⟩⟩
    · rintro ⟨x, hx⟩
      obtain ⟨e, he, h, _⟩ := (h2.val _ _).mp hx
      exact ⟨e, he, (fits_iff h2 he hk).mpr h⟩
  · intro e he h
    exact (h2.val _ _).mpr ⟨e, he, (fits_iff h2 he hk).mp h, rfl⟩
  · have hn : ((t.dict.map (keyPt t.mem)).map fun o => o.getD 0).Nodup := by
      refine List.Nodup.map_on ?_ h2.nodup
      intro a ha b hb hab
      obtain ⟨e, he, rfl⟩ := List.mem_map.mp ha
      obtain ⟨e', he', rfl⟩ := List.mem_map.mp hb
      obtain ⟨w, hw, _⟩ := h2.ok e he
      obtain ⟨w', hw', _⟩ := h2.ok e' he'
      unfold keyPt at hab ⊢
      rw [hw, hw'] at hab ⊢
      simpa using hab
    have hset : {p | g.2 p ≠ none} = {p | p ∈ (t.dict.map (keyPt t.mem)).map fun o => o.getD 0} := by
      ext p
      simp only [Set.mem_ofPred_eq, List.map_map, List.mem_map, Function.comp]
      rw [Option.ne_none_iff_exists']
      constructor
      · rintro ⟨x, hx⟩
        obtain ⟨e, he, h, _⟩ := (h2.val _ _).mp hx
        exact ⟨e, he, by rw [h]; rfl⟩
      · rintro ⟨e, he, h⟩
        obtain ⟨w, hw, _⟩ := h2.ok e he
        refine ⟨e.val, (h2.val _ _).mpr ⟨e, he, ?_, rfl⟩⟩
        unfold keyPt at h ⊢
        rw [hw] at h ⊢
        rw [← h]; rfl
    rw [hset]
    have : {p | p ∈ (t.dict.map (keyPt t.mem)).map fun o => o.getD 0} =
        ((⟨_, Multiset.coe_nodup.mpr hn⟩ : Finset Pt) : Set Pt) := by ext; simp
    rw [this, Set.ncard_coe_finset]
    simp

/-- **C166**, what changing a key does: whatever the state of the program, an entry whose key object has got coordinates with
another hash than at insertion is found by no key at all, not even by the key object itself; if the hash is the same, the
key object finds it. -/
theorem C166_changed_key {V : Type} (hs : ℝ × ℝ → ℤ) (s : DState ℝ V) (e : DEntry V) (w : Vec ℝ)
    (hw : s.mem[e.key]? = some w) :
    (e.hash ≠ w.hash hs → ∀ k v, s.mem[k]? = some v → ¬ Fits hs s.mem e k v) ∧
    (e.hash = w.hash hs → Fits hs s.mem e e.key w) := by
  constructor
  · rintro hh k v hk ⟨h1, h2 | ⟨u, hu, h2⟩⟩
    · rw [h2, hk] at hw; cases hw; exact hh h1
    · rw [hw] at hu; cases hu
      rw [Vec.eq_iff] at h2
      refine hh (h1.trans ?_)
      unfold Vec.hash; rw [h2.1, h2.2]
  · intro hh
    exact ⟨hh, .inl rfl⟩

/-- **C166 is false** for keys that are changed: a vector that was put in a dictionary and then moved is the key of an entry
and is not found, and putting it in again gives two entries with the same key. -/
theorem C166_refuted (hs : ℝ × ℝ → ℤ) (h : hs (0, 0) ≠ hs (1, 0)) : ∃ t u : DState ℝ ℕ,
    Run hs ⟨[], []⟩ [.new (Vec.ofXY 0 0), .set 0 7, .write 0 (Vec.ofXY 1 0)] t ∧ (∃ e ∈ t.dict, e.key = 0) ∧
    (∀ v, t.mem[0]? = some v → ∀ e ∈ t.dict, ¬ Fits hs t.mem e 0 v) ∧
    Step hs t (.set 0 8) u ∧ u.dict.map DEntry.key = [0, 0] := by
  have hno : ∀ e ∈ ([⟨hs (0, 0), 0, 7⟩] : List (DEntry ℕ)), ¬ Fits hs [Vec.ofXY (1 : ℝ) 0] e 0 (Vec.ofXY 1 0) := by
    intro e he hF
    rw [List.mem_singleton.mp he] at hF
    exact h hF.1
  refine ⟨⟨[Vec.ofXY 1 0], [⟨hs (0, 0), 0, 7⟩]⟩, ⟨[Vec.ofXY 1 0], [⟨hs (0, 0), 0, 7⟩, ⟨hs (1, 0), 0, 8⟩]⟩, ?_,
    ⟨_, List.mem_singleton.mpr rfl, rfl⟩, ?_, ?_, rfl⟩
  · exact .cons (.new _ _) (.cons (.insert _ _ _ (Vec.ofXY 0 0) rfl (by simp)) (.cons (.write _ _ _ (by simp)) (.nil _)))
  · intro v hv
    cases hv
    exact hno
  · exact .insert ⟨[Vec.ofXY 1 0], [⟨hs (0, 0), 0, 7⟩]⟩ 0 8 (Vec.ofXY 1 0) rfl hno

/-- Non-vacuity of C166: two objects at the same point, one of them marked invalid, are one key. -/
example (hs : ℝ × ℝ → ℤ) : ∃ t : DState ℝ ℕ,
    Run hs ⟨[], []⟩ [.new ⟨1, 2, true⟩, .new ⟨1, 2, false⟩, .set 0 7, .set 1 8] t ∧ t.dict.map DEntry.val = [8] ∧
    KeysFrozen ([.new ⟨1, 2, true⟩, .new ⟨1, 2, false⟩, .set 0 7, .set 1 8] : List (Op ℝ ℕ)) := by
  refine ⟨⟨[⟨1, 2, true⟩, ⟨1, 2, false⟩], [⟨hs (1, 2), 0, 8⟩]⟩, ?_, rfl, ?_⟩
  · refine .cons (.new _ _) (.cons (.new _ _) (.cons (.insert _ _ _ ⟨1, 2, true⟩ rfl (by simp)) (.cons
      (.update _ _ _ ⟨1, 2, false⟩ [] ⟨hs (1, 2), 0, 7⟩ [] rfl rfl ⟨rfl, .inr ⟨⟨1, 2, true⟩, rfl, ?_⟩⟩) (.nil _))))
    rw [Vec.eq_iff]; exact ⟨rfl, rfl⟩
  · unfold KeysFrozen
    simp

end PyrusGeom
