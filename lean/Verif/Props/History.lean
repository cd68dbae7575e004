import Verif.Props.ConvexHull
import Verif.Props.Polygon
import Verif.Props.HeapOps

/-! # C148 – C150: polygons and hulls that are built step by step -/

namespace PyrusGeom
open Spec

/-! ## C148 -/

/-- `add_vertex` called for every point of a list. -/
def Poly.addVertices (p : Poly ℝ) (vs : List (Vec ℝ)) : Poly ℝ := vs.foldl Poly.addVertex p

/-- **C148** (part) `add_vertex` appends: after any number of calls the vertices are the old ones followed by the new
ones. -/
theorem C148_append_partial (p : Poly ℝ) (vs : List (Vec ℝ)) : (p.addVertices vs).vertices = p.vertices ++ vs := by
  induction vs generalizing p with
  | nil => simp [Poly.addVertices]
  | cons v vs ih =>
    have : p.addVertices (v :: vs) = (p.addVertex v).addVertices vs := rfl
    rw [this, ih]
    simp [Poly.addVertex]

/-- **C148** (part) A polygon that has been cleared, or made without arguments, and filled again with `vs` has the
vertices `vs` and the origin in front of them; its doubled signed area differs from that of `vs` by the one of the
triangle of the last new vertex, the origin and the first one. -/
theorem C148_partial (vs : List (Vec ℝ)) (f l : Vec ℝ) (mid : List (Vec ℝ)) :
    ((Poly.default : Poly ℝ).addVertices vs).vertices = Vec.zero :: vs ∧
    (vs = f :: mid ++ [l] → ((Poly.default : Poly ℝ).addVertices vs).doubleSignedArea =
      (Poly.ofList vs).doubleSignedArea + area2 l.pt (0, 0) f.pt) := by
  have h1 : ((Poly.default : Poly ℝ).addVertices vs).vertices = Vec.zero :: vs := by
    rw [C148_append_partial]; rfl
  refine ⟨h1, fun h => ?_⟩
  have h2 : (Poly.default : Poly ℝ).addVertices vs = Poly.ofList (Vec.zero :: vs) := by
    cases hP : (Poly.default : Poly ℝ).addVertices vs with
    | mk w => rw [hP] at h1; exact congrArg Poly.mk h1
  have h3 := C72_rotate (Vec.zero :: vs) 1
  rw [List.rotate_cons_succ, List.rotate_zero] at h3
  have h4 := C72_diagonal f l mid [Vec.zero]
  have h5 := C72_triangle l Vec.zero f
  rw [h2, ← h3, h]
  have e1 : f :: mid ++ [l] ++ [Vec.zero] = f :: mid ++ l :: [(Vec.zero : Vec ℝ)] := by simp
  have e2 : l :: [(Vec.zero : Vec ℝ)] ++ [f] = [l, Vec.zero, f] := rfl
  rw [e1, h4, e2, h5]
  congr 2
  exact Prod.ext (by simp [Vec.zero]) (by simp [Vec.zero])

/-- **C148** (part) `assign` replaces all vertices, except that an empty list is ignored. -/
theorem C148_assign_partial (p : Poly ℝ) (vs : List (Vec ℝ)) : (p.assign vs).vertices = if vs = [] then p.vertices else vs := by
  cases vs <;> simp [Poly.assign]

/-- The unit square moved to `(1, 1)`. -/
noncomputable def awaySquare : List (Vec ℝ) := [⟨1, 1, true⟩, ⟨2, 1, true⟩, ⟨2, 2, true⟩, ⟨1, 2, true⟩]

/-- **C148 is false**: a cleared polygon refilled with the corners of a square of area `1` has five vertices and the
area `3/2`. -/
theorem C148_refuted : ((Poly.default : Poly ℝ).addVertices awaySquare).vertices ≠ awaySquare ∧
    (Poly.ofList awaySquare).area = 1 ∧ ((Poly.default : Poly ℝ).addVertices awaySquare).area = 3 / 2 := by
  have h2 : ((Poly.default : Poly ℝ).addVertices awaySquare).doubleSignedArea =
      (Poly.ofList awaySquare).doubleSignedArea + area2 (1, 2) (0, 0) (1, 1) :=
    (C148_partial awaySquare ⟨1, 1, true⟩ ⟨1, 2, true⟩ [⟨2, 1, true⟩, ⟨2, 2, true⟩]).2 rfl
  have h3 : (Poly.ofList awaySquare).doubleSignedArea = 2 := by
    rw [C72_shoelace]
    norm_num [shoelace, Poly.pts, Poly.ofList, awaySquare, cyclicPairs, cross, Vec.pt]
  refine ⟨fun h => ?_, ?_, ?_⟩
  · rw [(C148_partial awaySquare ⟨1, 1, true⟩ ⟨1, 2, true⟩ []).1] at h
    have := congrArg List.length h
    simp [awaySquare] at this
  · rw [(C72_area _).1, h3]; norm_num
  · rw [(C72_area _).1, h2, h3]; norm_num [area2, abs_of_nonneg]

/-! ## C149 -/

namespace Hull

/-- What a user can do to a hull object, apart from the Graham scan. -/
inductive Op where
  | addPoint (p : Vec ℝ)
  | addPoints (ps : List (Vec ℝ))
  | clear
  | compute (m : Method) (h : m ≠ .graham)

/-- The effect on the object. -/
noncomputable def Op.run (srt : (Vec ℝ → Vec ℝ → Bool) → List (Vec ℝ) → List (Vec ℝ)) (h : Obj ℝ) :
    Op → Except PyErr (Obj ℝ)
  | .addPoint p => .ok (h.addPoint p)
  | .addPoints ps => .ok (h.addPoints ps)
  | .clear => .ok h.clear
  | .compute m _ => Hull.compute srt h m

/-- A sequence of calls. -/
noncomputable def runOps (srt : (Vec ℝ → Vec ℝ → Bool) → List (Vec ℝ) → List (Vec ℝ)) :
    Obj ℝ → List Op → Except PyErr (Obj ℝ)
  | h, [] => .ok h
  | h, o :: os => do runOps srt (← o.run srt h) os

/-- Specification: the points collected by the calls, in order. -/
def collected : List (Vec ℝ) → List Op → List (Vec ℝ)
  | pts, [] => pts
  | pts, .addPoint p :: os => collected (pts ++ [p]) os
  | pts, .addPoints ps :: os => collected (pts ++ ps) os
  | _, .clear :: os => collected [] os
  | pts, .compute _ _ :: os => collected pts os

theorem addPoints_input (h : Obj ℝ) (ps : List (Vec ℝ)) : h.addPoints ps = { h with input := h.input ++ ps } := by
  induction ps generalizing h with
  | nil => simp [Obj.addPoints]
  | cons p ps ih =>
    have : h.addPoints (p :: ps) = (h.addPoint p).addPoints ps := rfl
    rw [this, ih]
    simp [Obj.addPoint]

/-- **C149** (part) Over any sequence of `add_point`, `add_points`, `clear` and `compute` with gift wrapping or the direct
method, nothing is raised, `input_points()` is the collected list, and a final `compute` (any method, Graham scan
included) gives what it gives on a fresh object made from that list. -/
theorem C149_partial (srt) (pts : List (Vec ℝ)) (os : List Op) (m : Method) : ∃ h,
    runOps srt (Obj.ofList pts) os = .ok h ∧ h.inputPoints = collected pts os ∧
    compute srt h m = compute srt (Obj.ofList (collected pts os)) m := by
  suffices H : ∀ (os : List Op) (h : Obj ℝ) (pts : List (Vec ℝ)), h.aliased = false → h.input = pts →
      ∃ h', runOps srt h os = .ok h' ∧ h'.input = collected pts os ∧ h'.aliased = false by
    obtain ⟨h', h1, h2, h3⟩ := H os (Obj.ofList pts) pts rfl rfl
    refine ⟨h', h1, h2, ?_⟩
    have e1 := clearResults_input h3
    have e2 := clearResults_input (h := Obj.ofList h'.input) rfl
    rw [← h2]
    cases m with
    | wrapping => simp only [compute, wrapping, e1, e2]; rfl
    | direct => simp only [compute, direct, e1, e2]; rfl
    | graham => simp only [compute, graham, e1, e2]; rfl
  intro os
  induction os with
  | nil => intro h pts ha hp; exact ⟨h, rfl, hp, ha⟩
  | cons o os ih =>
    intro h pts ha hp
    cases o with
    | addPoint p => exact ih (h.addPoint p) (pts ++ [p]) ha (by rw [← hp]; rfl)
    | addPoints ps =>
      exact ih (h.addPoints ps) (pts ++ ps) (by rw [addPoints_input]; exact ha) (by rw [addPoints_input, ← hp])
    | clear => exact ih h.clear [] (by simp [Obj.clear, Obj.clearResults, ha]) rfl
    | compute m hm =>
      obtain ⟨h', e1, e2, e3, e4⟩ := compute_fresh (srt := srt) ha m hm
      obtain ⟨h'', g1, g2, g3⟩ := ih h' pts e3 (e4.trans hp)
      refine ⟨h'', ?_, g2, g3⟩
      simp only [runOps, Op.run, e1]
      exact g1

/-- **C149 is false** with the Graham scan: whenever it returned on at least three points, points added afterwards are lost
together with all others in the next `compute`, whatever the method. -/
theorem C149_refuted_graham (srt) (h h' : Obj ℝ) (hok : graham srt h = .ok h') (h3 : 3 ≤ h.clearResults.input.length)
    (ps : List (Vec ℝ)) (m : Method) :
    ∃ h'', compute srt (h'.addPoints ps) m = .ok h'' ∧ h''.inputPoints = [] ∧ h''.vertices = [] := by
  obtain ⟨v0, vl, e0, el, hal, he⟩ := graham_ok hok h3
  have hal' : (h'.addPoints ps).aliased = true := by rw [addPoints_input]; exact hal
  have hc : (h'.addPoints ps).clearResults = { h'.addPoints ps with input := [], edges := [] } := by
    rw [Obj.clearResults, if_pos hal']
  have : compute srt (h'.addPoints ps) m = .ok { h'.addPoints ps with input := [], edges := [] } := by
    cases m with
    | direct => simp [compute, direct, hc]
    | wrapping => simp [compute, wrapping, hc]
    | graham => simp [compute, graham, hc, pure, Except.pure]
  exact ⟨_, this, rfl, by rw [Obj.vertices, hal']; rfl⟩

/-- **C149 is false**: the hull of `[(1,0), (0,1), (1,1)]` by the Graham scan, the point `(2,2)` added, gift wrapping:
no vertices, though the four points have a hull of four vertices. -/
theorem C149_refuted (srt) (hs : Spec.Sorts srt) : ∃ h' h'', compute srt (Obj.ofList threePts) .graham = .ok h' ∧
    compute srt (h'.addPoint ⟨2, 2, true⟩) .wrapping = .ok h'' ∧ h''.vertices = [] ∧ h''.inputPoints = [] := by
  obtain ⟨h', h1, -⟩ := C80_refuted srt hs
  obtain ⟨h'', e1, e2, e3⟩ := C149_refuted_graham srt (Obj.ofList threePts) h' h1
    (by rw [clearResults_input rfl]; simp [Obj.ofList, threePts]) [⟨2, 2, true⟩] .wrapping
  exact ⟨h', h'', h1, e1, e3, e2⟩

/-- Example for `C149_partial`: three points, hull, one more point, hull again. -/
example : ∃ h, runOps (fun _ l => l) (Obj.ofList threePts) [.compute .wrapping (by decide), .addPoint ⟨2, 2, true⟩] = .ok h ∧
    compute (fun _ l => l) h .wrapping = compute (fun _ l => l) (Obj.ofList (threePts ++ [⟨2, 2, true⟩])) .wrapping :=
  let ⟨h, h1, _, h3⟩ := C149_partial (fun _ l => l) threePts [.compute .wrapping (by decide), .addPoint ⟨2, 2, true⟩] .wrapping
  ⟨h, h1, h3⟩

end Hull

/-! ## C150 -/

theorem Heap.list_set_self {h : Heap ℝ} {i : Addr} {as : List Addr} (hi : i < h.length) :
    Heap.list (h.set i (.list as)) i = .ok as := Heap.list_ok.mpr (by simp [hi])

/-- **C150** (part) If the argument is a list object other than the one the hull was made from, `add_points` ends, appends
the points in order and changes nothing but the hull's list. -/
theorem C150_partial {h : Heap ℝ} {c i v e l : Addr} {as bs : List Addr} (hc : h[c]? = some (.hull i v e))
    (hi : h[i]? = some (.list as)) (hl : h[l]? = some (.list bs)) (hne : l ≠ i) (fuel : ℕ) (hf : bs.length ≤ fuel) :
    ∃ h', h.hullAddPoints c l fuel = .ok (some h') ∧ h'[i]? = some (.list (as ++ bs)) ∧ ∀ x, x ≠ i → h'[x]? = h[x]? := by
  have lt := (List.getElem?_eq_some_iff.mp hi).1
  have key : ∀ (rest done : List Addr) (fuel : ℕ), bs = done ++ rest → rest.length ≤ fuel →
      Heap.hullAddPointsLoop i l fuel done.length (h.set i (.list (as ++ done))) =
        .ok (some (h.set i (.list (as ++ bs)))) := by
    intro rest
    induction rest with
    | nil =>
      intro done fuel hb hf
      have hl' : Heap.list (h.set i (.list (as ++ done))) l = .ok bs :=
        Heap.list_ok.mpr (by rw [List.getElem?_set_ne (Ne.symm hne), hl])
      have hn : bs[done.length]? = none := List.getElem?_eq_none (by rw [hb]; simp)
      unfold Heap.hullAddPointsLoop
      simp only [hl', bind, Except.bind, hn]
      rw [hb, List.append_nil]
    | cons p rest ih =>
      intro done fuel hb hf
      have hl' : Heap.list (h.set i (.list (as ++ done))) l = .ok bs :=
        Heap.list_ok.mpr (by rw [List.getElem?_set_ne (Ne.symm hne), hl])
      have hn : bs[done.length]? = some p := by rw [hb]; simp
      cases fuel with
      | zero => simp at hf
      | succ fuel =>
        unfold Heap.hullAddPointsLoop
        simp only [hl', bind, Except.bind, hn, Heap.listAppend, Heap.list_set_self lt, Heap.write, List.set_set]
        have := ih (done ++ [p]) fuel (by rw [hb]; simp) (by simpa using hf)
        rw [← List.append_assoc] at this
        simpa using this
  refine ⟨h.set i (.list (as ++ bs)), ?_, by simp [lt], fun x hx => List.getElem?_set_ne (Ne.symm hx)⟩
  have h0 : h.set i (.list (as ++ [])) = h := by
    rw [List.append_nil]
    apply List.ext_getElem?
    intro x
    by_cases hx : x = i
    · subst hx; rw [hi]; simp [lt]
    · rw [List.getElem?_set_ne (Ne.symm hx)]
  have := key bs [] fuel rfl hf
  rw [h0] at this
  simpa [Heap.hullAddPoints, Heap.hull_ok.mpr hc, bind, Except.bind] using this

/-- **C150 is false** if the argument is the hull's own list and it is not empty: the loop appends to the list it runs over
and never ends. -/
theorem C150_refuted {h : Heap ℝ} {c i v e : Addr} {a : Addr} {as : List Addr} (hc : h[c]? = some (.hull i v e))
    (hi : h[i]? = some (.list (a :: as))) (fuel : ℕ) : h.hullAddPoints c i fuel = .ok none := by
  have key : ∀ (fuel k : ℕ) (h : Heap ℝ) (as : List Addr), h[i]? = some (.list as) → k < as.length →
      Heap.hullAddPointsLoop i i fuel k h = .ok none := by
    intro fuel
    induction fuel with
    | zero =>
      intro k h as hi hk
      unfold Heap.hullAddPointsLoop
      simp only [Heap.list_ok.mpr hi, bind, Except.bind, List.getElem?_eq_getElem hk]
    | succ fuel ih =>
      intro k h as hi hk
      have lt := (List.getElem?_eq_some_iff.mp hi).1
      unfold Heap.hullAddPointsLoop
      simp only [Heap.list_ok.mpr hi, bind, Except.bind, List.getElem?_eq_getElem hk, Heap.listAppend, Heap.write]
      exact ih (k + 1) _ (as ++ [as[k]]) (by simp [lt]) (by simpa using hk)
  simp only [Heap.hullAddPoints, Heap.hull_ok.mpr hc, bind, Except.bind]
  exact key fuel 0 h (a :: as) hi (by simp)

/-- `pts = [Vector2D(1, 2)]; h = ConvexHull(pts); h.add_points(pts)` never returns; with `h.add_points(list(pts))` it does. -/
example : (∀ fuel, Heap.hullAddPoints [.vec ⟨(1 : ℝ), 2, true⟩, .list [0], .list [], .list [], .hull 1 2 3] 4 1 fuel = .ok none) ∧
    ∃ h', Heap.hullAddPoints [.vec ⟨(1 : ℝ), 2, true⟩, .list [0], .list [], .list [], .hull 1 2 3, .list [0]] 4 5 1 =
      .ok (some h') ∧ h'[1]? = some (.list [0, 0]) := by
  constructor
  · exact fun fuel => C150_refuted (i := 1) (v := 2) (e := 3) (a := 0) (as := []) rfl rfl fuel
  · obtain ⟨h', h1, h2, -⟩ := C150_partial (h := [.vec ⟨(1 : ℝ), 2, true⟩, .list [0], .list [], .list [], .hull 1 2 3, .list [0]])
      (c := 4) (i := 1) (v := 2) (e := 3) (l := 5) (as := [0]) (bs := [0]) rfl rfl rfl (by decide) 1 le_rfl
    exact ⟨h', h1, h2⟩

end PyrusGeom
