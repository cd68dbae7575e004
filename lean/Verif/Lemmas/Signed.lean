import Verif.Model.Signed
import Verif.Model.Polygon
import Verif.Model.ConvexHull
import Verif.Model.Matrix
import Verif.Model.Wrappers
import Verif.Lemmas.SzAttr

/-! # Forgetting the sign of zero -/

namespace PyrusGeom

/-- `val` forgets the sign of zero in every number of a value. -/
class Forget (α : Type) (β : outParam Type) where
  val : α → β

export Forget (val)

instance : Forget SZ Ieee := ⟨SZ.v⟩
instance : Forget (AngleDeg SZ) (AngleDeg Ieee) := ⟨fun a => ⟨val a.deg⟩⟩
instance : Forget (Vec SZ) (Vec Ieee) := ⟨fun v => ⟨val v.x, val v.y, v.valid⟩⟩
instance : Forget (Line SZ) (Line Ieee) := ⟨fun l => ⟨val l.a, val l.b, val l.c⟩⟩
instance : Forget (Ray SZ) (Ray Ieee) := ⟨fun r => ⟨val r.origin, val r.dir⟩⟩
instance : Forget (Circle SZ) (Circle Ieee) := ⟨fun c => ⟨val c.center, val c.radius⟩⟩
instance : Forget (Seg SZ) (Seg Ieee) := ⟨fun s => ⟨val s.origin, val s.terminal⟩⟩
instance : Forget (Tri SZ) (Tri Ieee) := ⟨fun t => ⟨val t.a, val t.b, val t.c⟩⟩
instance : Forget (Mat SZ) (Mat Ieee) := ⟨fun m => ⟨val m.m11, val m.m12, val m.m21, val m.m22, val m.dx, val m.dy⟩⟩
instance : Forget (Size SZ) (Size Ieee) := ⟨fun s => ⟨val s.length, val s.width⟩⟩
instance : Forget (Rect SZ) (Rect Ieee) := ⟨fun r => ⟨val r.topLeft, val r.size⟩⟩
instance : Forget (Sector SZ) (Sector Ieee) := ⟨fun s => ⟨val s.center, val s.minR, val s.maxR, val s.start, val s.stop⟩⟩
instance {α β : Type} [Forget α β] : Forget (List α) (List β) := ⟨List.map val⟩
instance {α β : Type} [Forget α β] : Forget (Option α) (Option β) := ⟨Option.map val⟩
instance {α β γ δ : Type} [Forget α β] [Forget γ δ] : Forget (α × γ) (β × δ) := ⟨Prod.map val val⟩
instance {α β : Type} [Forget α β] : Forget (Except PyErr α) (Except PyErr β) := ⟨Except.map val⟩
instance : Forget ℕ ℕ := ⟨id⟩
instance : Forget ℤ ℤ := ⟨id⟩
instance : Forget Bool Bool := ⟨id⟩
instance : Forget (Poly SZ) (Poly Ieee) := ⟨fun p => ⟨val p.vertices⟩⟩
instance : Forget (Poly.Bounds SZ) (Poly.Bounds Ieee) := ⟨fun b => ⟨val b.xMin, val b.xMax, val b.yMin, val b.yMax⟩⟩
instance : Forget (Tri.InterRes SZ) (Tri.InterRes Ieee) := ⟨fun r => ⟨r.n, val r.s0, val r.s1⟩⟩
instance : Forget (Hull.Obj SZ) (Hull.Obj Ieee) := ⟨fun h => ⟨val h.input, val h.verts, val h.edges, h.aliased⟩⟩
instance : Forget (Hull.SortKey SZ) (Hull.SortKey Ieee) := ⟨fun s => ⟨val s.obj, val s.base⟩⟩

/-! ## Numbers -/

section
variable (a b : SZ)
@[sz] theorem val_add : val (a + b) = val a + val b := rfl
@[sz] theorem val_sub : val (a - b) = val a - val b := rfl
@[sz] theorem val_mul : val (a * b) = val a * val b := rfl
@[sz] theorem val_div : val (a / b) = val a / val b := rfl
@[sz] theorem val_neg : val (-a) = -val a := rfl
@[sz] theorem val_natCast (n : ℕ) : val (n : SZ) = (n : Ieee) := rfl
@[sz] theorem val_intCast (n : ℤ) : val (n : SZ) = (n : Ieee) := rfl
@[sz] theorem val_lt : a < b ↔ val a < val b := Iff.rfl
@[sz] theorem val_le : a ≤ b ↔ val a ≤ val b := Iff.rfl
@[sz] theorem val_beq : (a == b) = (val a == val b) := rfl
@[sz] theorem val_sqrt : val (PyMath.sqrt a) = PyMath.sqrt (val a) := rfl
@[sz] theorem val_sin : val (PyMath.sin a) = PyMath.sin (val a) := rfl
@[sz] theorem val_cos : val (PyMath.cos a) = PyMath.cos (val a) := rfl
@[sz] theorem val_tan : val (PyMath.tan a) = PyMath.tan (val a) := rfl
@[sz] theorem val_acos : val (PyMath.acos a) = PyMath.acos (val a) := rfl
@[sz] theorem val_asin : val (PyMath.asin a) = PyMath.asin (val a) := rfl
@[sz] theorem val_atan : val (PyMath.atan a) = PyMath.atan (val a) := rfl
@[sz] theorem val_exp : val (PyMath.exp a) = PyMath.exp (val a) := rfl
@[sz] theorem val_log : val (PyMath.log a) = PyMath.log (val a) := rfl
@[sz] theorem val_powi (n : ℤ) : val (PyMath.powi a n) = PyMath.powi (val a) n := rfl
@[sz] theorem val_fmod : val (PyMath.fmod a b) = PyMath.fmod (val a) (val b) := rfl
@[sz] theorem val_pmod : val (PyMath.pmod a b) = PyMath.pmod (val a) (val b) := rfl
@[sz] theorem val_trunc : PyMath.trunc a = PyMath.trunc (val a) := rfl
@[sz] theorem val_pi : val (PyMath.pi : SZ) = PyMath.pi := rfl
@[sz] theorem val_EPSILON : val (EPSILON : SZ) = EPSILON := rfl
@[sz] theorem val_CALC_ERROR : val (CALC_ERROR : SZ) = CALC_ERROR := rfl
@[sz] theorem val_ERROR_VALUE : val (ERROR_VALUE : SZ) = ERROR_VALUE := rfl
@[sz] theorem val_DEG2RAD : val (DEG2RAD : SZ) = DEG2RAD := rfl
@[sz] theorem val_RAD2DEG : val (RAD2DEG : SZ) = RAD2DEG := rfl
@[sz] theorem val_sq : val (sq a) = sq (val a) := rfl
end

/-! ## Structures -/

section
variable {α β γ δ : Type} [Forget α β] [Forget γ δ]
@[sz] theorem val_ite (c : Prop) [Decidable c] (x y : α) : val (if c then x else y) = if c then val x else val y := apply_ite val c x y
@[sz] theorem val_nil : val ([] : List α) = [] := rfl
@[sz] theorem val_cons (x : α) (l : List α) : val (x :: l) = val x :: val l := rfl
@[sz] theorem val_append (l m : List α) : val (l ++ m) = val l ++ val m := List.map_append
@[sz] theorem val_length (l : List α) : (val l).length = l.length := List.length_map _
@[sz] theorem val_none : val (none : Option α) = none := rfl
@[sz] theorem val_some (x : α) : val (some x) = some (val x) := rfl
@[sz] theorem val_pair (x : α) (y : γ) : val (x, y) = (val x, val y) := rfl
@[sz] theorem val_fst (p : α × γ) : val p.1 = (val p).1 := rfl
@[sz] theorem val_snd (p : α × γ) : val p.2 = (val p).2 := rfl
@[sz] theorem val_error (e : PyErr) : val (.error e : Except PyErr α) = .error e := rfl
@[sz] theorem val_ok (x : α) : val (.ok x : Except PyErr α) = .ok (val x) := rfl
@[sz] theorem val_bool (x : Bool) : val x = x := rfl
@[sz] theorem val_nat (x : ℕ) : val x = x := rfl
@[sz] theorem val_int (x : ℤ) : val x = x := rfl
theorem val_dropLast (l : List α) : val l.dropLast = (val l).dropLast := List.map_dropLast
theorem val_getLast (l : List α) (h : l ≠ []) : val (l.getLast h) = (val l).getLast (mt List.map_eq_nil_iff.mp h) := (List.getLast_map _).symm
theorem val_pyErr (x : Except PyErr ℤ) : val x = x := by cases x <;> rfl
/-- A computation that may raise, followed by another. -/
theorem val_bind (x : Except PyErr α) (x' : Except PyErr β) (f : α → Except PyErr γ) (g : β → Except PyErr δ) (hx : val x = x')
    (h : ∀ a, val (f a) = g (val a)) : val (x >>= f) = x' >>= g := by
  subst hx
  cases x with
  | error e => rfl
  | ok a => exact h a
theorem val_map (f : α → γ) (g : β → δ) (h : ∀ a, val (f a) = g (val a)) (l : List α) : val (l.map f) = (val l).map g := by
  induction l with
  | nil => rfl
  | cons a l ih => exact congrArg₂ List.cons (h a) ih
theorem val_foldl (f : γ → α → γ) (g : δ → β → δ) (h : ∀ s a, val (f s a) = g (val s) (val a)) (l : List α) (s : γ) :
    val (l.foldl f s) = (val l).foldl g (val s) := by
  induction l generalizing s with
  | nil => rfl
  | cons a l ih => exact (ih _).trans (congrArg (fun t => (val l).foldl g t) (h s a))
theorem val_foldlN {ι : Type} (f : γ → ι → γ) (g : δ → ι → δ) (h : ∀ s a, val (f s a) = g (val s) a) (l : List ι) (s : γ) :
    val (l.foldl f s) = l.foldl g (val s) := by
  induction l generalizing s with
  | nil => rfl
  | cons a l ih => exact (ih _).trans (congrArg (fun t => l.foldl g t) (h s a))
end

@[sz] theorem val_AngleDeg (d : SZ) : val (⟨d⟩ : AngleDeg SZ) = ⟨val d⟩ := rfl
@[sz] theorem val_deg (a : AngleDeg SZ) : val a.deg = (val a).deg := rfl
@[sz] theorem val_Vec (x y : SZ) (b : Bool) : val (⟨x, y, b⟩ : Vec SZ) = ⟨val x, val y, b⟩ := rfl
@[sz] theorem val_x (v : Vec SZ) : val v.x = (val v).x := rfl
@[sz] theorem val_y (v : Vec SZ) : val v.y = (val v).y := rfl
@[sz] theorem val_valid (v : Vec SZ) : v.valid = (val v).valid := rfl
@[sz] theorem val_Line (a b c : SZ) : val (⟨a, b, c⟩ : Line SZ) = ⟨val a, val b, val c⟩ := rfl
@[sz] theorem val_Line_a (l : Line SZ) : val l.a = (val l).a := rfl
@[sz] theorem val_Line_b (l : Line SZ) : val l.b = (val l).b := rfl
@[sz] theorem val_Line_c (l : Line SZ) : val l.c = (val l).c := rfl
@[sz] theorem val_Ray (o : Vec SZ) (d : AngleDeg SZ) : val (⟨o, d⟩ : Ray SZ) = ⟨val o, val d⟩ := rfl
@[sz] theorem val_Ray_origin (r : Ray SZ) : val r.origin = (val r).origin := rfl
@[sz] theorem val_Ray_dir (r : Ray SZ) : val r.dir = (val r).dir := rfl
@[sz] theorem val_Circle (c : Vec SZ) (r : SZ) : val (⟨c, r⟩ : Circle SZ) = ⟨val c, val r⟩ := rfl
@[sz] theorem val_center (c : Circle SZ) : val c.center = (val c).center := rfl
@[sz] theorem val_radius (c : Circle SZ) : val c.radius = (val c).radius := rfl
@[sz] theorem val_Seg (o t : Vec SZ) : val (⟨o, t⟩ : Seg SZ) = ⟨val o, val t⟩ := rfl
@[sz] theorem val_origin (s : Seg SZ) : val s.origin = (val s).origin := rfl
@[sz] theorem val_terminal (s : Seg SZ) : val s.terminal = (val s).terminal := rfl
@[sz] theorem val_Tri (a b c : Vec SZ) : val (⟨a, b, c⟩ : Tri SZ) = ⟨val a, val b, val c⟩ := rfl
@[sz] theorem val_Tri_a (t : Tri SZ) : val t.a = (val t).a := rfl
@[sz] theorem val_Tri_b (t : Tri SZ) : val t.b = (val t).b := rfl
@[sz] theorem val_Tri_c (t : Tri SZ) : val t.c = (val t).c := rfl
@[sz] theorem val_Mat (a b c d x y : SZ) : val (⟨a, b, c, d, x, y⟩ : Mat SZ) = ⟨val a, val b, val c, val d, val x, val y⟩ := rfl
@[sz] theorem val_m11 (m : Mat SZ) : val m.m11 = (val m).m11 := rfl
@[sz] theorem val_m12 (m : Mat SZ) : val m.m12 = (val m).m12 := rfl
@[sz] theorem val_m21 (m : Mat SZ) : val m.m21 = (val m).m21 := rfl
@[sz] theorem val_m22 (m : Mat SZ) : val m.m22 = (val m).m22 := rfl
@[sz] theorem val_dx (m : Mat SZ) : val m.dx = (val m).dx := rfl
@[sz] theorem val_dy (m : Mat SZ) : val m.dy = (val m).dy := rfl
@[sz] theorem val_Size (l w : SZ) : val (⟨l, w⟩ : Size SZ) = ⟨val l, val w⟩ := rfl
@[sz] theorem val_Size_length (s : Size SZ) : val s.length = (val s).length := rfl
@[sz] theorem val_width (s : Size SZ) : val s.width = (val s).width := rfl
@[sz] theorem val_Rect (p : Vec SZ) (s : Size SZ) : val (⟨p, s⟩ : Rect SZ) = ⟨val p, val s⟩ := rfl
@[sz] theorem val_topLeft (r : Rect SZ) : val r.topLeft = (val r).topLeft := rfl
@[sz] theorem val_size (r : Rect SZ) : val r.size = (val r).size := rfl
@[sz] theorem val_Sector (c : Vec SZ) (a b : SZ) (s t : AngleDeg SZ) : val (⟨c, a, b, s, t⟩ : Sector SZ) = ⟨val c, val a, val b, val s, val t⟩ := rfl
@[sz] theorem val_Sector_center (s : Sector SZ) : val s.center = (val s).center := rfl
@[sz] theorem val_minR (s : Sector SZ) : val s.minR = (val s).minR := rfl
@[sz] theorem val_maxR (s : Sector SZ) : val s.maxR = (val s).maxR := rfl
@[sz] theorem val_start (s : Sector SZ) : val s.start = (val s).start := rfl
@[sz] theorem val_stop (s : Sector SZ) : val s.stop = (val s).stop := rfl
@[sz] theorem val_Poly (l : List (Vec SZ)) : val (⟨l⟩ : Poly SZ) = ⟨val l⟩ := rfl
@[sz] theorem val_vertices (p : Poly SZ) : val p.vertices = (val p).vertices := rfl
@[sz] theorem val_Bounds (a b c d : Option SZ) : val (⟨a, b, c, d⟩ : Poly.Bounds SZ) = ⟨val a, val b, val c, val d⟩ := rfl
@[sz] theorem val_xMin (b : Poly.Bounds SZ) : val b.xMin = (val b).xMin := rfl
@[sz] theorem val_xMax (b : Poly.Bounds SZ) : val b.xMax = (val b).xMax := rfl
@[sz] theorem val_yMin (b : Poly.Bounds SZ) : val b.yMin = (val b).yMin := rfl
@[sz] theorem val_yMax (b : Poly.Bounds SZ) : val b.yMax = (val b).yMax := rfl
@[sz] theorem val_InterRes (n : ℕ) (a b : Vec SZ) : val (⟨n, a, b⟩ : Tri.InterRes SZ) = ⟨n, val a, val b⟩ := rfl
@[sz] theorem val_n (r : Tri.InterRes SZ) : r.n = (val r).n := rfl
@[sz] theorem val_s0 (r : Tri.InterRes SZ) : val r.s0 = (val r).s0 := rfl
@[sz] theorem val_s1 (r : Tri.InterRes SZ) : val r.s1 = (val r).s1 := rfl
@[sz] theorem val_Obj (a b : List (Vec SZ)) (c : List (Seg SZ)) (d : Bool) : val (⟨a, b, c, d⟩ : Hull.Obj SZ) = ⟨val a, val b, val c, d⟩ := rfl
@[sz] theorem val_input (h : Hull.Obj SZ) : val h.input = (val h).input := rfl
@[sz] theorem val_verts (h : Hull.Obj SZ) : val h.verts = (val h).verts := rfl
@[sz] theorem val_edges (h : Hull.Obj SZ) : val h.edges = (val h).edges := rfl
@[sz] theorem val_aliased (h : Hull.Obj SZ) : h.aliased = (val h).aliased := rfl
@[sz] theorem val_obj (s : Hull.SortKey SZ) : val s.obj = (val s).obj := rfl
@[sz] theorem val_base (s : Hull.SortKey SZ) : val s.base = (val s).base := rfl

/-- Case distinction on the result of a computation that may raise. -/
macro "szc " t:term " => " r:ident : tactic => `(tactic| (
  rcases h : $t with e | $r:ident <;> have h' := congrArg val h <;> simp only [sz] at h' ⊢ <;>
    simp only [h, h', bind, Except.bind, pure, Except.pure, sz]))

@[sz] theorem val_fabs (a : SZ) : val (fabs a) = fabs (val a) := by simp only [fabs, sz]
@[sz] theorem val_pyMin (a b : SZ) : val (pyMin a b) = pyMin (val a) (val b) := by simp only [pyMin, sz]
@[sz] theorem val_pyMax (a b : SZ) : val (pyMax a b) = pyMax (val a) (val b) := by simp only [pyMax, sz]
@[sz] theorem val_pyDiv (a b : SZ) : val (pyDiv a b) = pyDiv (val a) (val b) := by simp only [pyDiv, sz]

theorem val_dropRejected_on (ok : Vec SZ → Bool) (ok' : Vec Ieee → Bool) (sol : List (Vec SZ)) (h : ∀ p ∈ sol, ok p = ok' (val p)) :
    val (Circle.dropRejected ok sol) = Circle.dropRejected ok' (val sol) := by
  rcases sol with _ | ⟨a, _ | ⟨b, l⟩⟩
  · rfl
  · simp only [Circle.dropRejected, sz, h a (by simp)]
  · simp only [Circle.dropRejected, sz, h a (by simp), h b (by simp)]
    rcases ok' (val b) <;> simp only [sz, h a (by simp), Bool.not_true, Bool.not_false, if_true, if_false, Bool.false_eq_true]

/-! ## Angle -/

@[sz] theorem sz_AngleDeg_normalDeg (d : SZ) : val (AngleDeg.normalDeg d) = AngleDeg.normalDeg (val d) := by simp only [AngleDeg.normalDeg, sz]
@[sz] theorem sz_AngleDeg_ofNum (d : SZ) : val (AngleDeg.ofNum d) = AngleDeg.ofNum (val d) := by simp only [AngleDeg.ofNum, sz]
@[sz] theorem sz_AngleDeg_default  : val (AngleDeg.default : AngleDeg SZ) = AngleDeg.default := by simp only [AngleDeg.default, sz]
@[sz] theorem sz_AngleDeg_degree (a : AngleDeg SZ) : val (AngleDeg.degree a) = AngleDeg.degree (val a) := by simp only [AngleDeg.degree, sz]
@[sz] theorem sz_AngleDeg_degree_ (a : AngleDeg SZ) : val (AngleDeg.degree_ a) = AngleDeg.degree_ (val a) := by simp only [AngleDeg.degree_, sz]
@[sz] theorem sz_AngleDeg_ofAngle (a : AngleDeg SZ) : val (AngleDeg.ofAngle a) = AngleDeg.ofAngle (val a) := by simp only [AngleDeg.ofAngle, sz]
@[sz] theorem sz_AngleDeg_setDegree (_a : AngleDeg SZ) (d : SZ) : val (AngleDeg.setDegree _a d) = AngleDeg.setDegree (val _a) (val d) := by simp only [AngleDeg.setDegree, sz]
@[sz] theorem sz_AngleDeg_setAngle (_a : AngleDeg SZ) (b : AngleDeg SZ) : val (AngleDeg.setAngle _a b) = AngleDeg.setAngle (val _a) (val b) := by simp only [AngleDeg.setAngle, sz]
@[sz] theorem sz_AngleDeg_abs (a : AngleDeg SZ) : val (AngleDeg.abs a) = AngleDeg.abs (val a) := by simp only [AngleDeg.abs, sz]
@[sz] theorem sz_AngleDeg_radian (a : AngleDeg SZ) : val (AngleDeg.radian a) = AngleDeg.radian (val a) := by simp only [AngleDeg.radian, sz]
@[sz] theorem sz_AngleDeg_copy (a : AngleDeg SZ) : val (AngleDeg.copy a) = AngleDeg.copy (val a) := by simp only [AngleDeg.copy, sz]
@[sz] theorem sz_AngleDeg_reverse (a : AngleDeg SZ) : val (AngleDeg.reverse a) = AngleDeg.reverse (val a) := by simp only [AngleDeg.reverse, sz]
@[sz] theorem sz_AngleDeg_reverseAngle (a : AngleDeg SZ) : val (AngleDeg.reverseAngle a) = AngleDeg.reverseAngle (val a) := by simp only [AngleDeg.reverseAngle, sz]
@[sz] theorem sz_AngleDeg_getNormalized (a : AngleDeg SZ) : val (AngleDeg.getNormalized a) = AngleDeg.getNormalized (val a) := by simp only [AngleDeg.getNormalized, sz]
@[sz] theorem sz_AngleDeg_isLeftOf (a b : AngleDeg SZ) : AngleDeg.isLeftOf a b = AngleDeg.isLeftOf (val a) (val b) := by simp only [AngleDeg.isLeftOf, sz]
@[sz] theorem sz_AngleDeg_isRightOf (a b : AngleDeg SZ) : AngleDeg.isRightOf a b = AngleDeg.isRightOf (val a) (val b) := by simp only [AngleDeg.isRightOf, sz]
@[sz] theorem sz_AngleDeg_isLeftEqualOf (a b : AngleDeg SZ) : AngleDeg.isLeftEqualOf a b = AngleDeg.isLeftEqualOf (val a) (val b) := by simp only [AngleDeg.isLeftEqualOf, sz]
@[sz] theorem sz_AngleDeg_isRightEqualOf (a b : AngleDeg SZ) : AngleDeg.isRightEqualOf a b = AngleDeg.isRightEqualOf (val a) (val b) := by simp only [AngleDeg.isRightEqualOf, sz]
@[sz] theorem sz_AngleDeg_isWithin (a left right : AngleDeg SZ) : AngleDeg.isWithin a left right = AngleDeg.isWithin (val a) (val left) (val right) := by simp only [AngleDeg.isWithin, sz]
@[sz] theorem sz_AngleDeg_iaddNum (a : AngleDeg SZ) (d : SZ) : val (AngleDeg.iaddNum a d) = AngleDeg.iaddNum (val a) (val d) := by simp only [AngleDeg.iaddNum, sz]
@[sz] theorem sz_AngleDeg_iadd (a b : AngleDeg SZ) : val (AngleDeg.iadd a b) = AngleDeg.iadd (val a) (val b) := by simp only [AngleDeg.iadd, sz]
@[sz] theorem sz_AngleDeg_isubNum (a : AngleDeg SZ) (d : SZ) : val (AngleDeg.isubNum a d) = AngleDeg.isubNum (val a) (val d) := by simp only [AngleDeg.isubNum, sz]
@[sz] theorem sz_AngleDeg_isub (a b : AngleDeg SZ) : val (AngleDeg.isub a b) = AngleDeg.isub (val a) (val b) := by simp only [AngleDeg.isub, sz]
@[sz] theorem sz_AngleDeg_imul (a : AngleDeg SZ) (s : SZ) : val (AngleDeg.imul a s) = AngleDeg.imul (val a) (val s) := by simp only [AngleDeg.imul, sz]
@[sz] theorem sz_AngleDeg_idiv (a : AngleDeg SZ) (s : SZ) : val (AngleDeg.idiv a s) = AngleDeg.idiv (val a) (val s) := by
  simp only [AngleDeg.idiv]
  szc pyDiv a.deg s => r
@[sz] theorem sz_AngleDeg_add (a b : AngleDeg SZ) : val (AngleDeg.add a b) = AngleDeg.add (val a) (val b) := by simp only [AngleDeg.add, sz]
@[sz] theorem sz_AngleDeg_addNum (a : AngleDeg SZ) (d : SZ) : val (AngleDeg.addNum a d) = AngleDeg.addNum (val a) (val d) := by simp only [AngleDeg.addNum, sz]
@[sz] theorem sz_AngleDeg_sub (a b : AngleDeg SZ) : val (AngleDeg.sub a b) = AngleDeg.sub (val a) (val b) := by simp only [AngleDeg.sub, sz]
@[sz] theorem sz_AngleDeg_subNum (a : AngleDeg SZ) (d : SZ) : val (AngleDeg.subNum a d) = AngleDeg.subNum (val a) (val d) := by simp only [AngleDeg.subNum, sz]
@[sz] theorem sz_AngleDeg_mul (a : AngleDeg SZ) (s : SZ) : val (AngleDeg.mul a s) = AngleDeg.mul (val a) (val s) := by simp only [AngleDeg.mul, sz]
@[sz] theorem sz_AngleDeg_floordiv (a : AngleDeg SZ) (s : SZ) : val (AngleDeg.floordiv a s) = AngleDeg.floordiv (val a) (val s) := by
  simp only [AngleDeg.floordiv]
  szc pyDiv a.deg s => r
@[sz] theorem sz_AngleDeg_neg (a : AngleDeg SZ) : val (AngleDeg.neg a) = AngleDeg.neg (val a) := by simp only [AngleDeg.neg, sz]
@[sz] theorem sz_AngleDeg_eqNum (a : AngleDeg SZ) (d : SZ) : AngleDeg.eqNum a d = AngleDeg.eqNum (val a) (val d) := by simp only [AngleDeg.eqNum, sz]
@[sz] theorem sz_AngleDeg_eq (a b : AngleDeg SZ) : AngleDeg.eq a b = AngleDeg.eq (val a) (val b) := by simp only [AngleDeg.eq, sz]
@[sz] theorem sz_AngleDeg_cos (a : AngleDeg SZ) : val (AngleDeg.cos a) = AngleDeg.cos (val a) := by simp only [AngleDeg.cos, sz]
@[sz] theorem sz_AngleDeg_sin (a : AngleDeg SZ) : val (AngleDeg.sin a) = AngleDeg.sin (val a) := by simp only [AngleDeg.sin, sz]
@[sz] theorem sz_AngleDeg_tan (a : AngleDeg SZ) : val (AngleDeg.tan a) = AngleDeg.tan (val a) := by simp only [AngleDeg.tan, sz]
@[sz] theorem sz_AngleDeg_rad2deg (rad : SZ) : val (AngleDeg.rad2deg rad) = AngleDeg.rad2deg (val rad) := by simp only [AngleDeg.rad2deg, sz]
@[sz] theorem sz_AngleDeg_deg2rad (deg : SZ) : val (AngleDeg.deg2rad deg) = AngleDeg.deg2rad (val deg) := by simp only [AngleDeg.deg2rad, sz]
@[sz] theorem sz_AngleDeg_cosDeg (deg : SZ) : val (AngleDeg.cosDeg deg) = AngleDeg.cosDeg (val deg) := by simp only [AngleDeg.cosDeg, sz]
@[sz] theorem sz_AngleDeg_sinDeg (deg : SZ) : val (AngleDeg.sinDeg deg) = AngleDeg.sinDeg (val deg) := by simp only [AngleDeg.sinDeg, sz]
@[sz] theorem sz_AngleDeg_tanDeg (deg : SZ) : val (AngleDeg.tanDeg deg) = AngleDeg.tanDeg (val deg) := by simp only [AngleDeg.tanDeg, sz]
@[sz] theorem sz_AngleDeg_mathAcos (x : SZ) : val (AngleDeg.mathAcos x) = AngleDeg.mathAcos (val x) := by simp only [AngleDeg.mathAcos, sz]
@[sz] theorem sz_AngleDeg_mathAsin (x : SZ) : val (AngleDeg.mathAsin x) = AngleDeg.mathAsin (val x) := by simp only [AngleDeg.mathAsin, sz]
@[sz] theorem sz_AngleDeg_acosDeg (cosine : SZ) : val (AngleDeg.acosDeg cosine) = AngleDeg.acosDeg (val cosine) := by
  simp only [AngleDeg.acosDeg]
  szc AngleDeg.mathAcos cosine => r
@[sz] theorem sz_AngleDeg_asinDeg (sine : SZ) : val (AngleDeg.asinDeg sine) = AngleDeg.asinDeg (val sine) := by
  simp only [AngleDeg.asinDeg]
  szc AngleDeg.mathAsin sine => r
@[sz] theorem sz_AngleDeg_atanDeg (tangent : SZ) : val (AngleDeg.atanDeg tangent) = AngleDeg.atanDeg (val tangent) := by simp only [AngleDeg.atanDeg, sz]
@[sz] theorem sz_AngleDeg_bisect (left right : SZ) : val (AngleDeg.bisect left right) = AngleDeg.bisect (val left) (val right) := by simp only [AngleDeg.bisect, sz]
@[sz] theorem sz_AngleDeg_normalizeAngle (d : SZ) : val (AngleDeg.normalizeAngle d) = AngleDeg.normalizeAngle (val d) := by simp only [AngleDeg.normalizeAngle, sz]

/-! ## Vector -/

@[sz] theorem sz_Vec_ofXY (x y : SZ) : val (Vec.ofXY x y) = Vec.ofXY (val x) (val y) := by simp only [Vec.ofXY, sz]
@[sz] theorem sz_Vec_zero  : val (Vec.zero : Vec SZ) = Vec.zero := by simp only [Vec.zero, sz]
@[sz] theorem sz_Vec_ofVec (v : Vec SZ) : val (Vec.ofVec v) = Vec.ofVec (val v) := by simp only [Vec.ofVec, sz]
@[sz] theorem sz_Vec_copy (v : Vec SZ) : val (Vec.copy v) = Vec.copy (val v) := by simp only [Vec.copy, sz]
@[sz] theorem sz_Vec_assign (v : Vec SZ) (x y : SZ) : val (Vec.assign v x y) = Vec.assign (val v) (val x) (val y) := by simp only [Vec.assign, sz]
@[sz] theorem sz_Vec_setX (v : Vec SZ) (x : SZ) : val (Vec.setX v x) = Vec.setX (val v) (val x) := by simp only [Vec.setX, sz]
@[sz] theorem sz_Vec_setY (v : Vec SZ) (y : SZ) : val (Vec.setY v y) = Vec.setY (val v) (val y) := by simp only [Vec.setY, sz]
@[sz] theorem sz_Vec_setVector (_v : Vec SZ) (o : Vec SZ) : val (Vec.setVector _v o) = Vec.setVector (val _v) (val o) := by simp only [Vec.setVector, sz]
@[sz] theorem sz_Vec_setPolar (v : Vec SZ) (radius : SZ) (angle : AngleDeg SZ) : val (Vec.setPolar v radius angle) = Vec.setPolar (val v) (val radius) (val angle) := by simp only [Vec.setPolar, sz]
@[sz] theorem sz_Vec_validate (v : Vec SZ) : val (Vec.validate v) = Vec.validate (val v) := by simp only [Vec.validate, sz]
@[sz] theorem sz_Vec_invalidate (v : Vec SZ) : val (Vec.invalidate v) = Vec.invalidate (val v) := by simp only [Vec.invalidate, sz]
@[sz] theorem sz_Vec_isValid (v : Vec SZ) : Vec.isValid v = Vec.isValid (val v) := by simp only [Vec.isValid, sz]
@[sz] theorem sz_Vec_r2 (v : Vec SZ) : val (Vec.r2 v) = Vec.r2 (val v) := by simp only [Vec.r2, sz]
@[sz] theorem sz_Vec_r (v : Vec SZ) : val (Vec.r v) = Vec.r (val v) := by simp only [Vec.r, sz]
@[sz] theorem sz_Vec_abs (v : Vec SZ) : val (Vec.abs v) = Vec.abs (val v) := by simp only [Vec.abs, sz]
@[sz] theorem sz_Vec_absX (v : Vec SZ) : val (Vec.absX v) = Vec.absX (val v) := by simp only [Vec.absX, sz]
@[sz] theorem sz_Vec_absY (v : Vec SZ) : val (Vec.absY v) = Vec.absY (val v) := by simp only [Vec.absY, sz]
@[sz] theorem sz_Vec_addIn (v o : Vec SZ) : val (Vec.addIn v o) = Vec.addIn (val v) (val o) := by simp only [Vec.addIn, sz]
@[sz] theorem sz_Vec_addXY (v : Vec SZ) (x y : SZ) : val (Vec.addXY v x y) = Vec.addXY (val v) (val x) (val y) := by simp only [Vec.addXY, sz]
@[sz] theorem sz_Vec_addX (v : Vec SZ) (x : SZ) : val (Vec.addX v x) = Vec.addX (val v) (val x) := by simp only [Vec.addX, sz]
@[sz] theorem sz_Vec_addY (v : Vec SZ) (y : SZ) : val (Vec.addY v y) = Vec.addY (val v) (val y) := by simp only [Vec.addY, sz]
@[sz] theorem sz_Vec_subIn (v o : Vec SZ) : val (Vec.subIn v o) = Vec.subIn (val v) (val o) := by simp only [Vec.subIn, sz]
@[sz] theorem sz_Vec_subXY (v : Vec SZ) (x y : SZ) : val (Vec.subXY v x y) = Vec.subXY (val v) (val x) (val y) := by simp only [Vec.subXY, sz]
@[sz] theorem sz_Vec_subX (v : Vec SZ) (x : SZ) : val (Vec.subX v x) = Vec.subX (val v) (val x) := by simp only [Vec.subX, sz]
@[sz] theorem sz_Vec_subY (v : Vec SZ) (y : SZ) : val (Vec.subY v y) = Vec.subY (val v) (val y) := by simp only [Vec.subY, sz]
@[sz] theorem sz_Vec_scale (v : Vec SZ) (s : SZ) : val (Vec.scale v s) = Vec.scale (val v) (val s) := by simp only [Vec.scale, sz]
@[sz] theorem sz_Vec_dist2 (v o : Vec SZ) : val (Vec.dist2 v o) = Vec.dist2 (val v) (val o) := by simp only [Vec.dist2, sz]
@[sz] theorem sz_Vec_dist (v o : Vec SZ) : val (Vec.dist v o) = Vec.dist (val v) (val o) := by simp only [Vec.dist, sz]
@[sz] theorem sz_Vec_reverse (v : Vec SZ) : val (Vec.reverse v) = Vec.reverse (val v) := by simp only [Vec.reverse, sz]
@[sz] theorem sz_Vec_reverseVector (v : Vec SZ) : val (Vec.reverseVector v) = Vec.reverseVector (val v) := by simp only [Vec.reverseVector, sz]
@[sz] theorem sz_Vec_setLength (v : Vec SZ) (length : SZ) : val (Vec.setLength v length) = Vec.setLength (val v) (val length) := by simp only [Vec.setLength, sz]
@[sz] theorem sz_Vec_setLengthVector (v : Vec SZ) (length : SZ) : val (Vec.setLengthVector v length) = Vec.setLengthVector (val v) (val length) := by simp only [Vec.setLengthVector, sz]
@[sz] theorem sz_Vec_normalize (v : Vec SZ) : val (Vec.normalize v) = Vec.normalize (val v) := by simp only [Vec.normalize, sz]
@[sz] theorem sz_Vec_normalizeVector (v : Vec SZ) : val (Vec.normalizeVector v) = Vec.normalizeVector (val v) := by simp only [Vec.normalizeVector, sz]
@[sz] theorem sz_Vec_innerProduct (v p : Vec SZ) : val (Vec.innerProduct v p) = Vec.innerProduct (val v) (val p) := by simp only [Vec.innerProduct, sz]
@[sz] theorem sz_Vec_outerProduct (v p : Vec SZ) : val (Vec.outerProduct v p) = Vec.outerProduct (val v) (val p) := by simp only [Vec.outerProduct, sz]
@[sz] theorem sz_Vec_equals (v o : Vec SZ) : Vec.equals v o = Vec.equals (val v) (val o) := by simp only [Vec.equals, sz]
@[sz] theorem sz_Vec_equalsWeakly (v o : Vec SZ) : Vec.equalsWeakly v o = Vec.equalsWeakly (val v) (val o) := by simp only [Vec.equalsWeakly, sz]
@[sz] theorem sz_Vec_rotate (v : Vec SZ) (deg : SZ) : val (Vec.rotate v deg) = Vec.rotate (val v) (val deg) := by simp only [Vec.rotate, sz]
@[sz] theorem sz_Vec_rotatedVector (v : Vec SZ) (deg : SZ) : val (Vec.rotatedVector v deg) = Vec.rotatedVector (val v) (val deg) := by simp only [Vec.rotatedVector, sz]
@[sz] theorem sz_Vec_setDir (v : Vec SZ) (direction : AngleDeg SZ) : val (Vec.setDir v direction) = Vec.setDir (val v) (val direction) := by simp only [Vec.setDir, sz]
@[sz] theorem sz_Vec_eq (v o : Vec SZ) : Vec.eq v o = Vec.eq (val v) (val o) := by simp only [Vec.eq, sz]
@[sz] theorem sz_Vec_add (v o : Vec SZ) : val (Vec.add v o) = Vec.add (val v) (val o) := by simp only [Vec.add, sz]
@[sz] theorem sz_Vec_sub (v o : Vec SZ) : val (Vec.sub v o) = Vec.sub (val v) (val o) := by simp only [Vec.sub, sz]
@[sz] theorem sz_Vec_truediv (v : Vec SZ) (s : SZ) : val (Vec.truediv v s) = Vec.truediv (val v) (val s) := by
  simp only [Vec.truediv]
  szc pyDiv v.x s => r
  szc pyDiv v.y s => r
@[sz] theorem sz_Vec_mul (v : Vec SZ) (s : SZ) : val (Vec.mul v s) = Vec.mul (val v) (val s) := by simp only [Vec.mul, sz]
@[sz] theorem sz_Vec_iadd (v o : Vec SZ) : val (Vec.iadd v o) = Vec.iadd (val v) (val o) := by simp only [Vec.iadd, sz]
@[sz] theorem sz_Vec_isub (v o : Vec SZ) : val (Vec.isub v o) = Vec.isub (val v) (val o) := by simp only [Vec.isub, sz]
@[sz] theorem sz_Vec_imul (v : Vec SZ) (s : SZ) : val (Vec.imul v s) = Vec.imul (val v) (val s) := by simp only [Vec.imul, sz]
@[sz] theorem sz_Vec_invalid  : val (Vec.invalid : Vec SZ) = Vec.invalid := by simp only [Vec.invalid, sz]
@[sz] theorem sz_Vec_fromPolar (mag : SZ) (theta : AngleDeg SZ) : val (Vec.fromPolar mag theta) = Vec.fromPolar (val mag) (val theta) := by simp only [Vec.fromPolar, sz]
@[sz] theorem sz_Vec_ofRA (radius : SZ) (angle : AngleDeg SZ) : val (Vec.ofRA radius angle) = Vec.ofRA (val radius) (val angle) := by simp only [Vec.ofRA, sz]

/-! ## Line -/

@[sz] theorem sz_Line_ofABC (a b c : SZ) : val (Line.ofABC a b c) = Line.ofABC (val a) (val b) (val c) := by simp only [Line.ofABC, sz]
@[sz] theorem sz_Line_ofAngle (p : Vec SZ) (dir : AngleDeg SZ) : val (Line.ofAngle p dir) = Line.ofAngle (val p) (val dir) := by simp only [Line.ofAngle, sz]
@[sz] theorem sz_Line_ofPoints (p q : Vec SZ) : val (Line.ofPoints p q) = Line.ofPoints (val p) (val q) := by simp only [Line.ofPoints, sz]
@[sz] theorem sz_Line_getX (l : Line SZ) (y : SZ) : val (Line.getX l y) = Line.getX (val l) (val y) := by simp only [Line.getX, sz]
@[sz] theorem sz_Line_getY (l : Line SZ) (x : SZ) : val (Line.getY l x) = Line.getY (val l) (val x) := by simp only [Line.getY, sz]
@[sz] theorem sz_Line_dist (l : Line SZ) (p : Vec SZ) : val (Line.dist l p) = Line.dist (val l) (val p) := by
  simp only [Line.dist]
  szc pyDiv (l.a * p.x + l.b * p.y + l.c) (PyMath.sqrt (l.a * l.a + l.b * l.b)) => r
@[sz] theorem sz_Line_dist2 (l : Line SZ) (p : Vec SZ) : val (Line.dist2 l p) = Line.dist2 (val l) (val p) := by simp only [Line.dist2, sz]
@[sz] theorem sz_Line_isParallel (l o : Line SZ) : Line.isParallel l o = Line.isParallel (val l) (val o) := by simp only [Line.isParallel, sz]
@[sz] theorem sz_Line_intersection (l1 l2 : Line SZ) : val (Line.intersection l1 l2) = Line.intersection (val l1) (val l2) := by simp only [Line.intersection, sz]
@[sz] theorem sz_Line_perpendicular (l : Line SZ) (p : Vec SZ) : val (Line.perpendicular l p) = Line.perpendicular (val l) (val p) := by simp only [Line.perpendicular, sz]
@[sz] theorem sz_Line_projection (l : Line SZ) (p : Vec SZ) : val (Line.projection l p) = Line.projection (val l) (val p) := by simp only [Line.projection, sz]
@[sz] theorem sz_Line_angleBisector (origin : Vec SZ) (left right : AngleDeg SZ) : val (Line.angleBisector origin left right) = Line.angleBisector (val origin) (val left) (val right) := by simp only [Line.angleBisector, sz]
@[sz] theorem sz_Line_perpendicularBisector (p1 p2 : Vec SZ) : val (Line.perpendicularBisector p1 p2) = Line.perpendicularBisector (val p1) (val p2) := by simp only [Line.perpendicularBisector, sz]
@[sz] theorem sz_Line_eq (l o : Line SZ) : Line.eq l o = Line.eq (val l) (val o) := by simp only [Line.eq, sz]

/-! ## Ray -/

@[sz] theorem sz_Ray_ofAngle (origin : Vec SZ) (a : AngleDeg SZ) : val (Ray.ofAngle origin a) = Ray.ofAngle (val origin) (val a) := by simp only [Ray.ofAngle, sz]
@[sz] theorem sz_Ray_line (r : Ray SZ) : val (Ray.line r) = Ray.line (val r) := by simp only [Ray.line, sz]
@[sz] theorem sz_Ray_eq (r o : Ray SZ) : Ray.eq r o = Ray.eq (val r) (val o) := by simp only [Ray.eq, sz]

/-! ## Segment -/

@[sz] theorem sz_Tri_dsa (a b c : Vec SZ) : val (Tri.dsa a b c) = Tri.dsa (val a) (val b) (val c) := by simp only [Tri.dsa, sz]
@[sz] theorem sz_Tri_signedArea (a b c : Vec SZ) : val (Tri.signedArea a b c) = Tri.signedArea (val a) (val b) (val c) := by simp only [Tri.signedArea, sz]
@[sz] theorem sz_Tri_ccw (a b c : Vec SZ) : Tri.ccw a b c = Tri.ccw (val a) (val b) (val c) := by simp only [Tri.ccw, sz]
@[sz] theorem sz_Seg_ofPoints (p q : Vec SZ) : val (Seg.ofPoints p q) = Seg.ofPoints (val p) (val q) := by simp only [Seg.ofPoints, sz]
@[sz] theorem sz_Seg_ofPolar (p : Vec SZ) (length : SZ) (a : AngleDeg SZ) : val (Seg.ofPolar p length a) = Seg.ofPolar (val p) (val length) (val a) := by simp only [Seg.ofPolar, sz]
@[sz] theorem sz_Seg_ofXYXY (x0 y0 x1 y1 : SZ) : val (Seg.ofXYXY x0 y0 x1 y1) = Seg.ofXYXY (val x0) (val y0) (val x1) (val y1) := by simp only [Seg.ofXYXY, sz]
@[sz] theorem sz_Seg_isValid (s : Seg SZ) : Seg.isValid s = Seg.isValid (val s) := by simp only [Seg.isValid, sz]
@[sz] theorem sz_Seg_line (s : Seg SZ) : val (Seg.line s) = Seg.line (val s) := by simp only [Seg.line, sz]
@[sz] theorem sz_Seg_length (s : Seg SZ) : val (Seg.length s) = Seg.length (val s) := by simp only [Seg.length, sz]
@[sz] theorem sz_Seg_swap (s : Seg SZ) : val (Seg.swap s) = Seg.swap (val s) := by simp only [Seg.swap, sz]
@[sz] theorem sz_Seg_reversedSegment (s : Seg SZ) : val (Seg.reversedSegment s) = Seg.reversedSegment (val s) := by simp only [Seg.reversedSegment, sz]
@[sz] theorem sz_Seg_perpendicularBisector (s : Seg SZ) : val (Seg.perpendicularBisector s) = Seg.perpendicularBisector (val s) := by simp only [Seg.perpendicularBisector, sz]
@[sz] theorem sz_Seg_contains (s : Seg SZ) (p : Vec SZ) : Seg.contains s p = Seg.contains (val s) (val p) := by simp only [Seg.contains, sz]
@[sz] theorem sz_Seg_eq (s o : Seg SZ) : Seg.eq s o = Seg.eq (val s) (val o) := by simp only [Seg.eq, sz]
@[sz] theorem sz_Seg_equalsWeakly (s o : Seg SZ) : Seg.equalsWeakly s o = Seg.equalsWeakly (val s) (val o) := by simp only [Seg.equalsWeakly, sz]
@[sz] theorem sz_Seg_projection (s : Seg SZ) (p : Vec SZ) : val (Seg.projection s p) = Seg.projection (val s) (val p) := by simp only [Seg.projection, sz]
@[sz] theorem sz_Seg_checkIntersectsOnLine (s : Seg SZ) (p : Vec SZ) : Seg.checkIntersectsOnLine s p = Seg.checkIntersectsOnLine (val s) (val p) := by simp only [Seg.checkIntersectsOnLine, sz]
@[sz] theorem sz_Seg_existIntersection (s o : Seg SZ) : Seg.existIntersection s o = Seg.existIntersection (val s) (val o) := by simp only [Seg.existIntersection, sz]
@[sz] theorem sz_Seg_existIntersectionLine (s : Seg SZ) (l : Line SZ) : Seg.existIntersectionLine s l = Seg.existIntersectionLine (val s) (val l) := by simp only [Seg.existIntersectionLine, sz]
@[sz] theorem sz_Seg_existIntersectionExceptEndpoint (s o : Seg SZ) : Seg.existIntersectionExceptEndpoint s o = Seg.existIntersectionExceptEndpoint (val s) (val o) := by simp only [Seg.existIntersectionExceptEndpoint, sz]
@[sz] theorem sz_Seg_intersectionLine (s : Seg SZ) (l : Line SZ) : val (Seg.intersectionLine s l) = Seg.intersectionLine (val s) (val l) := by simp only [Seg.intersectionLine, sz]
@[sz] theorem sz_Seg_intersectionSeg (s o : Seg SZ) (allowEndPoint : Bool) : val (Seg.intersectionSeg s o allowEndPoint) = Seg.intersectionSeg (val s) (val o) allowEndPoint := by simp only [Seg.intersectionSeg, sz]
@[sz] theorem sz_Seg_nearestPoint (s : Seg SZ) (p : Vec SZ) : val (Seg.nearestPoint s p) = Seg.nearestPoint (val s) (val p) := by simp only [Seg.nearestPoint, sz]
@[sz] theorem sz_Seg_distPoint (s : Seg SZ) (p : Vec SZ) : val (Seg.distPoint s p) = Seg.distPoint (val s) (val p) := by simp only [Seg.distPoint, sz]
@[sz] theorem sz_Seg_distSeg (s o : Seg SZ) : val (Seg.distSeg s o) = Seg.distSeg (val s) (val o) := by simp only [Seg.distSeg, sz]
@[sz] theorem sz_Seg_farthestDist (s : Seg SZ) (p : Vec SZ) : val (Seg.farthestDist s p) = Seg.farthestDist (val s) (val p) := by simp only [Seg.farthestDist, sz]
@[sz] theorem sz_Seg_onSegment (s : Seg SZ) (p : Vec SZ) : Seg.onSegment s p = Seg.onSegment (val s) (val p) := by simp only [Seg.onSegment, sz]
@[sz] theorem sz_Seg_onSegmentWeakly (s : Seg SZ) (p : Vec SZ) : Seg.onSegmentWeakly s p = Seg.onSegmentWeakly (val s) (val p) := by simp only [Seg.onSegmentWeakly, sz]
@[sz] theorem sz_Tri_ofPoints (a b c : Vec SZ) : val (Tri.ofPoints a b c) = Tri.ofPoints (val a) (val b) (val c) := by simp only [Tri.ofPoints, sz]
@[sz] theorem sz_Tri_ofSeg (s : Seg SZ) (c : Vec SZ) : val (Tri.ofSeg s c) = Tri.ofSeg (val s) (val c) := by simp only [Tri.ofSeg, sz]
@[sz] theorem sz_Tri_isValid (t : Tri SZ) : Tri.isValid t = Tri.isValid (val t) := by simp only [Tri.isValid, sz]
@[sz] theorem sz_Tri_area (t : Tri SZ) : val (Tri.area t) = Tri.area (val t) := by simp only [Tri.area, sz]
@[sz] theorem sz_Tri_triContains (a b c p : Vec SZ) : Tri.triContains a b c p = Tri.triContains (val a) (val b) (val c) (val p) := by simp only [Tri.triContains, sz]
@[sz] theorem sz_Tri_contains (t : Tri SZ) (p : Vec SZ) : Tri.contains t p = Tri.contains (val t) (val p) := by simp only [Tri.contains, sz]
@[sz] theorem sz_Tri_addReturns (_v _o : Vec SZ) : val (Tri.addReturns _v _o) = Tri.addReturns (val _v) (val _o) := by simp only [Tri.addReturns, sz]
@[sz] theorem sz_Tri_triCentroid (a b c : Vec SZ) : val (Tri.triCentroid a b c) = Tri.triCentroid (val a) (val b) (val c) := rfl
@[sz] theorem sz_Tri_triCircumcenter (a b c : Vec SZ) : val (Tri.triCircumcenter a b c) = Tri.triCircumcenter (val a) (val b) (val c) := by simp only [Tri.triCircumcenter, sz]
@[sz] theorem sz_Tri_triOrthocenter (a b c : Vec SZ) : val (Tri.triOrthocenter a b c) = Tri.triOrthocenter (val a) (val b) (val c) := by simp only [Tri.triOrthocenter, sz]
@[sz] theorem sz_Tri_setSol (t : Vec SZ × Vec SZ) (i : ℕ) (v : Vec SZ) : val (Tri.setSol t i v) = Tri.setSol (val t) i (val v) := by
  rcases i with _ | _ | i <;> simp only [Tri.setSol, sz]
@[sz] theorem sz_Tri_intersectionLine (t : Tri SZ) (l : Line SZ) : val (Tri.intersectionLine t l) = Tri.intersectionLine (val t) (val l) := by
  simp only [Tri.intersectionLine]
  refine val_bind _ _ _ _ (by simp only [sz]) fun r => ?_
  refine val_bind _ _ _ _ (by simp only [sz]) fun r => ?_
  refine val_bind _ _ _ _ (by simp only [sz]) fun r => ?_
  simp only [pure, Except.pure, sz]
@[sz] theorem sz_Tri_intersectionSeg (_t : Tri SZ) (_s : Seg SZ) : val (Tri.intersectionSeg _t _s) = Tri.intersectionSeg (val _t) (val _s) := by simp only [Tri.intersectionSeg, sz]

/-! ## Circle -/

@[sz] theorem sz_quadraticF (a b c : SZ) : val (quadraticF a b c) = quadraticF (val a) (val b) (val c) := by simp only [quadraticF, sz]
@[sz] theorem sz_Circle_ofCR (center : Vec SZ) (radius : SZ) : val (Circle.ofCR center radius) = Circle.ofCR (val center) (val radius) := by simp only [Circle.ofCR, sz]
@[sz] theorem sz_Circle_default  : val (Circle.default : Circle SZ) = Circle.default := by simp only [Circle.default, sz]
@[sz] theorem sz_Circle_area (c : Circle SZ) : val (Circle.area c) = Circle.area (val c) := by simp only [Circle.area, sz]
@[sz] theorem sz_Circle_contains (c : Circle SZ) (p : Vec SZ) : Circle.contains c p = Circle.contains (val c) (val p) := by simp only [Circle.contains, sz]
theorem val_solPoints (mk : SZ → Vec SZ) (mk' : Ieee → Vec Ieee) (h : ∀ s, val (mk s) = mk' (val s)) (sol : List SZ) :
    val (Circle.solPoints mk sol) = Circle.solPoints mk' (val sol) := by
  rcases sol with _ | ⟨a, _ | ⟨b, l⟩⟩ <;> simp only [Circle.solPoints, sz, h]
@[sz] theorem sz_Circle_intersectionLine (c : Circle SZ) (l : Line SZ) : val (Circle.intersectionLine c l) = Circle.intersectionLine (val c) (val l) := by
  simp only [Circle.intersectionLine, sz]
  refine if_congr Iff.rfl (if_congr Iff.rfl rfl ?_) ?_
  · szc quadraticF (num 1) (-(num 2) * c.center.x) (sq c.center.x + sq (l.c / l.b + c.center.y) - sq c.radius) => r
    exact congrArg Except.ok (val_solPoints _ _ (fun s => by simp only [sz]) _)
  · szc quadraticF (num 1 + l.b / l.a * (l.b / l.a)) (num 2 * (-c.center.y + (l.c / l.a + c.center.x) * (l.b / l.a)))
      (sq (l.c / l.a + c.center.x) + sq c.center.y - sq c.radius) => r
    exact congrArg Except.ok (val_solPoints _ _ (fun s => by simp only [sz]) _)
theorem val_dropRejected (ok : Vec SZ → Bool) (ok' : Vec Ieee → Bool) (h : ∀ p, ok p = ok' (val p)) (sol : List (Vec SZ)) :
    val (Circle.dropRejected ok sol) = Circle.dropRejected ok' (val sol) := val_dropRejected_on ok ok' sol fun p _ => h p
@[sz] theorem sz_Circle_intersectionSeg (c : Circle SZ) (s : Seg SZ) : val (Circle.intersectionSeg c s) = Circle.intersectionSeg (val c) (val s) := by
  simp only [Circle.intersectionSeg]
  szc c.intersectionLine s.line => r
  exact congrArg Except.ok (val_dropRejected _ _ (fun p => sz_Seg_contains s p) _)
@[sz] theorem sz_Circle_intersectionCircle (c o : Circle SZ) : val (Circle.intersectionCircle c o) = Circle.intersectionCircle (val c) (val o) := by simp only [Circle.intersectionCircle, sz]
@[sz] theorem sz_Circle_circumCircle (p0 p1 p2 : Vec SZ) : val (Circle.circumCircle p0 p1 p2) = Circle.circumCircle (val p0) (val p1) (val p2) := by
  simp only [Circle.circumCircle, sz]
@[sz] theorem sz_Circle_circumCircleContains (q p0 p1 p2 : Vec SZ) : Circle.circumCircleContains q p0 p1 p2 = Circle.circumCircleContains (val q) (val p0) (val p1) (val p2) := by simp only [Circle.circumCircleContains, sz]

/-! ## Matrix -/

@[sz] theorem sz_Mat_identity  : val (Mat.identity : Mat SZ) = Mat.identity := by simp only [Mat.identity, sz]
@[sz] theorem sz_Mat_det (m : Mat SZ) : val (Mat.det m) = Mat.det (val m) := by simp only [Mat.det, sz]
@[sz] theorem sz_Mat_invertible (m : Mat SZ) : Mat.invertible m = Mat.invertible (val m) := by simp only [Mat.invertible, sz]
@[sz] theorem sz_Mat_inverted (m : Mat SZ) : val (Mat.inverted m) = Mat.inverted (val m) := by simp only [Mat.inverted, sz]
@[sz] theorem sz_Mat_translate (m : Mat SZ) (x y : SZ) : val (Mat.translate m x y) = Mat.translate (val m) (val x) (val y) := by simp only [Mat.translate, sz]
@[sz] theorem sz_Mat_scale (m : Mat SZ) (sx sy : SZ) : val (Mat.scale m sx sy) = Mat.scale (val m) (val sx) (val sy) := by simp only [Mat.scale, sz]
@[sz] theorem sz_Mat_rotate (m : Mat SZ) (angle : AngleDeg SZ) : val (Mat.rotate m angle) = Mat.rotate (val m) (val angle) := by simp only [Mat.rotate, sz]
@[sz] theorem sz_Mat_transformXY (m : Mat SZ) (x y : SZ) : val (Mat.transformXY m x y) = Mat.transformXY (val m) (val x) (val y) := by simp only [Mat.transformXY, sz]
@[sz] theorem sz_Mat_transform (m : Mat SZ) (v : Vec SZ) : val (Mat.transform m v) = Mat.transform (val m) (val v) := by simp only [Mat.transform, sz]
@[sz] theorem sz_Mat_transformVec (m : Mat SZ) (v : Vec SZ) : val (Mat.transformVec m v) = Mat.transformVec (val m) (val v) := by simp only [Mat.transformVec, sz]
@[sz] theorem sz_Mat_makeTranslation (x y : SZ) : val (Mat.makeTranslation x y) = Mat.makeTranslation (val x) (val y) := by simp only [Mat.makeTranslation, sz]
@[sz] theorem sz_Mat_makeScaling (sx sy : SZ) : val (Mat.makeScaling sx sy) = Mat.makeScaling (val sx) (val sy) := by simp only [Mat.makeScaling, sz]
@[sz] theorem sz_Mat_makeRotation (angle : AngleDeg SZ) : val (Mat.makeRotation angle) = Mat.makeRotation (val angle) := by simp only [Mat.makeRotation, sz]
@[sz] theorem sz_Mat_mul (m o : Mat SZ) : val (Mat.mul m o) = Mat.mul (val m) (val o) := by simp only [Mat.mul, sz]
@[sz] theorem sz_Mat_eq (m o : Mat SZ) : Mat.eq m o = Mat.eq (val m) (val o) := by simp only [Mat.eq, sz]

/-! ## Sector -/

@[sz] theorem sz_Sector_ofArgs (center : Vec SZ) (minR maxR : SZ) (start stop : AngleDeg SZ) : val (Sector.ofArgs center minR maxR start stop) = Sector.ofArgs (val center) (val minR) (val maxR) (val start) (val stop) := by simp only [Sector.ofArgs, sz]
@[sz] theorem sz_Sector_radiusMin (s : Sector SZ) : val (Sector.radiusMin s) = Sector.radiusMin (val s) := by simp only [Sector.radiusMin, sz]
@[sz] theorem sz_Sector_radiusMax (s : Sector SZ) : val (Sector.radiusMax s) = Sector.radiusMax (val s) := by simp only [Sector.radiusMax, sz]
@[sz] theorem sz_Sector_arcDeg (s : Sector SZ) : val (Sector.arcDeg s) = Sector.arcDeg (val s) := by simp only [Sector.arcDeg, sz]
@[sz] theorem sz_Sector_area (s : Sector SZ) : val (Sector.area s) = Sector.area (val s) := by simp only [Sector.area, sz]
@[sz] theorem sz_Sector_circumferenceMin (s : Sector SZ) : val (Sector.circumferenceMin s) = Sector.circumferenceMin (val s) := by simp only [Sector.circumferenceMin, sz]
@[sz] theorem sz_Sector_circumferenceMax (s : Sector SZ) : val (Sector.circumferenceMax s) = Sector.circumferenceMax (val s) := by simp only [Sector.circumferenceMax, sz]
@[sz] theorem sz_Sector_eq (s o : Sector SZ) : Sector.eq s o = Sector.eq (val s) (val o) := by simp only [Sector.eq, sz]

/-! ## Rect -/

@[sz] theorem sz_Size_ofLW (l w : SZ) : val (Size.ofLW l w) = Size.ofLW (val l) (val w) := by simp only [Size.ofLW, sz]
@[sz] theorem sz_Size_setLength (s : Size SZ) (l : SZ) : val (Size.setLength s l) = Size.setLength (val s) (val l) := by simp only [Size.setLength, sz]
@[sz] theorem sz_Size_setWidth (s : Size SZ) (w : SZ) : val (Size.setWidth s w) = Size.setWidth (val s) (val w) := by simp only [Size.setWidth, sz]
@[sz] theorem sz_Size_diagonal (s : Size SZ) : val (Size.diagonal s) = Size.diagonal (val s) := by simp only [Size.diagonal, sz]
@[sz] theorem sz_Size_isValid (s : Size SZ) : Size.isValid s = Size.isValid (val s) := by simp only [Size.isValid, sz]
@[sz] theorem sz_Size_eq (s o : Size SZ) : Size.eq s o = Size.eq (val s) (val o) := by simp only [Size.eq, sz]
@[sz] theorem sz_Rect_ofLTLW (l t len wid : SZ) : val (Rect.ofLTLW l t len wid) = Rect.ofLTLW (val l) (val t) (val len) (val wid) := by simp only [Rect.ofLTLW, sz]
@[sz] theorem sz_Rect_ofPointLW (p : Vec SZ) (len wid : SZ) : val (Rect.ofPointLW p len wid) = Rect.ofPointLW (val p) (val len) (val wid) := by simp only [Rect.ofPointLW, sz]
@[sz] theorem sz_Rect_ofCorners (p q : Vec SZ) : val (Rect.ofCorners p q) = Rect.ofCorners (val p) (val q) := by simp only [Rect.ofCorners, sz]
@[sz] theorem sz_Rect_ofPointSize (p : Vec SZ) (s : Size SZ) : val (Rect.ofPointSize p s) = Rect.ofPointSize (val p) (val s) := by simp only [Rect.ofPointSize, sz]
@[sz] theorem sz_Rect_ofRect (r : Rect SZ) : val (Rect.ofRect r) = Rect.ofRect (val r) := by simp only [Rect.ofRect, sz]
@[sz] theorem sz_Rect_ofNothing  : val (Rect.ofNothing : Except PyErr (Rect SZ)) = Rect.ofNothing := by simp only [Rect.ofNothing, sz]
@[sz] theorem sz_Rect_assign4 (r : Rect SZ) (l t _len wid : SZ) : val (Rect.assign4 r l t _len wid) = Rect.assign4 (val r) (val l) (val t) (val _len) (val wid) := by simp only [Rect.assign4, sz]
@[sz] theorem sz_Rect_assign3 (_r : Rect SZ) (p : Vec SZ) (len wid : SZ) : val (Rect.assign3 _r p len wid) = Rect.assign3 (val _r) (val p) (val len) (val wid) := by simp only [Rect.assign3, sz]
@[sz] theorem sz_Rect_left (r : Rect SZ) : val (Rect.left r) = Rect.left (val r) := by simp only [Rect.left, sz]
@[sz] theorem sz_Rect_right (r : Rect SZ) : val (Rect.right r) = Rect.right (val r) := by simp only [Rect.right, sz]
@[sz] theorem sz_Rect_top (r : Rect SZ) : val (Rect.top r) = Rect.top (val r) := by simp only [Rect.top, sz]
@[sz] theorem sz_Rect_bottom (r : Rect SZ) : val (Rect.bottom r) = Rect.bottom (val r) := by simp only [Rect.bottom, sz]
@[sz] theorem sz_Rect_moveCenter (r : Rect SZ) (p : Vec SZ) : val (Rect.moveCenter r p) = Rect.moveCenter (val r) (val p) := by simp only [Rect.moveCenter, sz]
@[sz] theorem sz_Rect_moveTopLeft (r : Rect SZ) (p : Vec SZ) : val (Rect.moveTopLeft r p) = Rect.moveTopLeft (val r) (val p) := by simp only [Rect.moveTopLeft, sz]
@[sz] theorem sz_Rect_moveBottomRight (r : Rect SZ) (p : Vec SZ) : val (Rect.moveBottomRight r p) = Rect.moveBottomRight (val r) (val p) := by simp only [Rect.moveBottomRight, sz]
@[sz] theorem sz_Rect_moveLeft (r : Rect SZ) (x : SZ) : val (Rect.moveLeft r x) = Rect.moveLeft (val r) (val x) := by simp only [Rect.moveLeft, sz]
@[sz] theorem sz_Rect_moveRight (r : Rect SZ) (x : SZ) : val (Rect.moveRight r x) = Rect.moveRight (val r) (val x) := by simp only [Rect.moveRight, sz]
@[sz] theorem sz_Rect_moveTop (r : Rect SZ) (y : SZ) : val (Rect.moveTop r y) = Rect.moveTop (val r) (val y) := by simp only [Rect.moveTop, sz]
@[sz] theorem sz_Rect_moveBottom (r : Rect SZ) (y : SZ) : val (Rect.moveBottom r y) = Rect.moveBottom (val r) (val y) := by simp only [Rect.moveBottom, sz]
@[sz] theorem sz_Rect_setTopLeft (r : Rect SZ) (x y : SZ) : val (Rect.setTopLeft r x y) = Rect.setTopLeft (val r) (val x) (val y) := by simp only [Rect.setTopLeft, sz]
@[sz] theorem sz_Rect_setBottomRight (r : Rect SZ) (x y : SZ) : val (Rect.setBottomRight r x y) = Rect.setBottomRight (val r) (val x) (val y) := by simp only [Rect.setBottomRight, sz]
@[sz] theorem sz_Rect_setLeft (r : Rect SZ) (x : SZ) : val (Rect.setLeft r x) = Rect.setLeft (val r) (val x) := by simp only [Rect.setLeft, sz]
@[sz] theorem sz_Rect_setRight (r : Rect SZ) (x : SZ) : val (Rect.setRight r x) = Rect.setRight (val r) (val x) := by simp only [Rect.setRight, sz]
@[sz] theorem sz_Rect_setTop (r : Rect SZ) (y : SZ) : val (Rect.setTop r y) = Rect.setTop (val r) (val y) := by simp only [Rect.setTop, sz]
@[sz] theorem sz_Rect_setBottom (r : Rect SZ) (y : SZ) : val (Rect.setBottom r y) = Rect.setBottom (val r) (val y) := by simp only [Rect.setBottom, sz]
@[sz] theorem sz_Rect_setLength (r : Rect SZ) (l : SZ) : val (Rect.setLength r l) = Rect.setLength (val r) (val l) := by simp only [Rect.setLength, sz]
@[sz] theorem sz_Rect_setWidth (r : Rect SZ) (w : SZ) : val (Rect.setWidth r w) = Rect.setWidth (val r) (val w) := by simp only [Rect.setWidth, sz]
@[sz] theorem sz_Rect_setSize (r : Rect SZ) (l w : SZ) : val (Rect.setSize r l w) = Rect.setSize (val r) (val l) (val w) := by simp only [Rect.setSize, sz]
@[sz] theorem sz_Rect_isValid (r : Rect SZ) : Rect.isValid r = Rect.isValid (val r) := by simp only [Rect.isValid, sz]
@[sz] theorem sz_Rect_area (r : Rect SZ) : val (Rect.area r) = Rect.area (val r) := by simp only [Rect.area, sz]
@[sz] theorem sz_Rect_contains (r : Rect SZ) (p : Vec SZ) : Rect.contains r p = Rect.contains (val r) (val p) := by simp only [Rect.contains, sz]
@[sz] theorem sz_Rect_containsAlmost (_r : Rect SZ) (_p : Vec SZ) (_thr : SZ) : Rect.containsAlmost _r _p _thr = Rect.containsAlmost (val _r) (val _p) (val _thr) := by simp only [Rect.containsAlmost, sz]
@[sz] theorem sz_Rect_center (r : Rect SZ) : val (Rect.center r) = Rect.center (val r) := by simp only [Rect.center, sz]
@[sz] theorem sz_Rect_getTopLeft (r : Rect SZ) : val (Rect.getTopLeft r) = Rect.getTopLeft (val r) := by simp only [Rect.getTopLeft, sz]
@[sz] theorem sz_Rect_topRight (r : Rect SZ) : val (Rect.topRight r) = Rect.topRight (val r) := by simp only [Rect.topRight, sz]
@[sz] theorem sz_Rect_bottomLeft (r : Rect SZ) : val (Rect.bottomLeft r) = Rect.bottomLeft (val r) := by simp only [Rect.bottomLeft, sz]
@[sz] theorem sz_Rect_bottomRight (r : Rect SZ) : val (Rect.bottomRight r) = Rect.bottomRight (val r) := by simp only [Rect.bottomRight, sz]
@[sz] theorem sz_Rect_leftEdge (r : Rect SZ) : val (Rect.leftEdge r) = Rect.leftEdge (val r) := by simp only [Rect.leftEdge, sz]
@[sz] theorem sz_Rect_rightEdge (r : Rect SZ) : val (Rect.rightEdge r) = Rect.rightEdge (val r) := by simp only [Rect.rightEdge, sz]
@[sz] theorem sz_Rect_topEdge (r : Rect SZ) : val (Rect.topEdge r) = Rect.topEdge (val r) := by simp only [Rect.topEdge, sz]
@[sz] theorem sz_Rect_bottomEdge (r : Rect SZ) : val (Rect.bottomEdge r) = Rect.bottomEdge (val r) := by simp only [Rect.bottomEdge, sz]
@[sz] theorem sz_Rect_interStep (acc : List (Vec SZ)) (v : Vec SZ) (ok : Bool) : val (Rect.interStep acc v ok) = Rect.interStep (val acc) (val v) ok := by
  simp only [Rect.interStep, sz]
@[sz] theorem sz_Rect_dropNear (l : List (Vec SZ)) : val (Rect.dropNear l) = Rect.dropNear (val l) := by
  rcases l with _ | ⟨a, _ | ⟨b, _ | ⟨c, l⟩⟩⟩ <;> simp only [Rect.dropNear, sz]
@[sz] theorem sz_Rect_intersectionLine (r : Rect SZ) (l : Line SZ) : val (Rect.intersectionLine r l) = Rect.intersectionLine (val r) (val l) := by simp only [Rect.intersectionLine, sz]
@[sz] theorem sz_Rect_intersectionSeg (r : Rect SZ) (s : Seg SZ) : val (Rect.intersectionSeg r s) = Rect.intersectionSeg (val r) (val s) := by
  simp only [Rect.intersectionSeg, sz]
  rw [val_dropRejected _ _ (fun p => sz_Seg_contains s p)]
  simp only [sz]
@[sz] theorem sz_Rect_intersected (r o : Rect SZ) : val (Rect.intersected r o) = Rect.intersected (val r) (val o) := by simp only [Rect.intersected, sz]
@[sz] theorem sz_Rect_united (r o : Rect SZ) : val (Rect.united r o) = Rect.united (val r) (val o) := by simp only [Rect.united, sz]
@[sz] theorem sz_Rect_fromCenter4 (x y l w : SZ) : val (Rect.fromCenter4 x y l w) = Rect.fromCenter4 (val x) (val y) (val l) (val w) := by simp only [Rect.fromCenter4, sz]
@[sz] theorem sz_Rect_fromCenter3 (_p : Vec SZ) (_l _w : SZ) : val (Rect.fromCenter3 _p _l _w) = Rect.fromCenter3 (val _p) (val _l) (val _w) := by simp only [Rect.fromCenter3, sz]

/-! ## Polygon -/

@[sz] theorem sz_cyclicPairs {α β : Type} [Forget α β] (v : List α) : val (cyclicPairs v) = cyclicPairs (val v) := by
  rcases v with _ | ⟨a, t⟩
  · rfl
  · simp only [cyclicPairs, sz]
    simp only [val, ← List.map_cons, List.zip_map, ← List.map_nil (f := (Forget.val : α → β)), ← List.map_append]
@[sz] theorem sz_chainPairs {α β : Type} [Forget α β] (v : List α) : val (chainPairs v) = chainPairs (val v) := by
  simp only [chainPairs, val, ← List.map_tail, List.zip_map]
@[sz] theorem sz_Poly_default  : val (Poly.default : Poly SZ) = Poly.default := by simp only [Poly.default, sz]
@[sz] theorem sz_Poly_ofList (l : List (Vec SZ)) : val (Poly.ofList l) = Poly.ofList (val l) := by simp only [Poly.ofList, sz]
@[sz] theorem sz_Poly_ofVecs (l : List (Vec SZ)) : val (Poly.ofVecs l) = Poly.ofVecs (val l) := by
  simp only [Poly.ofVecs, sz, val_map _ _ sz_Vec_copy]
@[sz] theorem sz_Poly_assign (p : Poly SZ) (l : List (Vec SZ)) : val (Poly.assign p l) = Poly.assign (val p) (val l) := by simp only [Poly.assign, sz]
@[sz] theorem sz_Poly_addVertex (p : Poly SZ) (v : Vec SZ) : val (Poly.addVertex p v) = Poly.addVertex (val p) (val v) := by simp only [Poly.addVertex, sz]
@[sz] theorem sz_Poly_updMax (m : Option SZ) (v : SZ) : val (Poly.updMax m v) = Poly.updMax (val m) (val v) := by
  cases m <;> simp only [Poly.updMax, sz]
@[sz] theorem sz_Poly_updMin (m : Option SZ) (v : SZ) : val (Poly.updMin m v) = Poly.updMin (val m) (val v) := by
  cases m <;> simp only [Poly.updMin, sz]
@[sz] theorem sz_Poly_boundsStep (b : Poly.Bounds SZ) (p : Vec SZ) : val (Poly.boundsStep b p) = Poly.boundsStep (val b) (val p) := by simp only [Poly.boundsStep, sz]
@[sz] theorem sz_Poly_boundingBox (p : Poly SZ) : val (Poly.boundingBox p) = Poly.boundingBox (val p) := by
  rcases p with ⟨_ | ⟨v, vs⟩⟩
  · rfl
  · have h : val ((v :: vs).foldl Poly.boundsStep {}) = (val (v :: vs)).foldl Poly.boundsStep {} :=
      val_foldl _ _ (fun s a => sz_Poly_boundsStep s a) _ _
    simp only [Poly.boundingBox, sz] at h ⊢
    rw [← h]
    generalize (v :: vs).foldl Poly.boundsStep {} = b
    rcases b with ⟨_ | a, _ | b, _ | c, _ | d⟩ <;> simp only [sz]
@[sz] theorem sz_Poly_halfLine (bb : Rect SZ) (v0 p : Vec SZ) : val (Poly.halfLine bb v0 p) = Poly.halfLine (val bb) (val v0) (val p) := by simp only [Poly.halfLine, sz]
@[sz] theorem sz_Poly_containsLoop (p : Vec SZ) (allow : Bool) (line : Seg SZ) (l : List (Vec SZ × Vec SZ)) (b : Bool) :
    Poly.containsLoop p allow line l b = Poly.containsLoop (val p) allow (val line) (val l) b := by
  induction l generalizing b with
  | nil => rfl
  | cons e l ih =>
    obtain ⟨p0, p1⟩ := e
    simp only [Poly.containsLoop, sz, ih]
@[sz] theorem sz_Poly_contains (poly : Poly SZ) (p : Vec SZ) (allow : Bool) : Poly.contains poly p allow = Poly.contains (val poly) (val p) allow := by
  rcases poly with ⟨_ | ⟨v, _ | ⟨w, vs⟩⟩⟩
  · rfl
  · simp only [Poly.contains, sz]
  · have h := sz_Poly_boundingBox ⟨v :: w :: vs⟩
    simp only [Poly.contains, val_Poly, val_cons] at h ⊢
    rw [← h]
    rcases Poly.boundingBox ⟨v :: w :: vs⟩ with e | bb
    · rfl
    · simp only [sz]
@[sz] theorem sz_Poly_distStep (p : Vec SZ) (m : Option SZ) (e : Vec SZ × Vec SZ) : val (Poly.distStep p m e) = Poly.distStep (val p) (val m) (val e) := by simp only [Poly.distStep, sz]
@[sz] theorem sz_Poly_dist (poly : Poly SZ) (p : Vec SZ) (checkAsPlane : Bool) : val (Poly.dist poly p checkAsPlane) = Poly.dist (val poly) (val p) checkAsPlane := by
  rcases poly with ⟨_ | ⟨v, _ | ⟨w, _ | ⟨u, vs⟩⟩⟩⟩ <;>
    simp only [Poly.dist, sz, val_foldl _ _ (fun m e => sz_Poly_distStep p m e), val_getLast]
@[sz] theorem sz_Poly_doubleSignedArea (poly : Poly SZ) : val (Poly.doubleSignedArea poly) = Poly.doubleSignedArea (val poly) := by
  simp only [Poly.doubleSignedArea, sz]
  rw [val_foldl _ (fun acc e => acc + (e.1.x * e.2.y - e.2.x * e.1.y)) (fun s a => by simp only [sz]), ← val_vertices, val_length]
  simp only [sz]
@[sz] theorem sz_Poly_area (poly : Poly SZ) : val (Poly.area poly) = Poly.area (val poly) := by simp only [Poly.area, sz]
@[sz] theorem sz_Poly_isCounterClockwise (poly : Poly SZ) : Poly.isCounterClockwise poly = Poly.isCounterClockwise (val poly) := by simp only [Poly.isCounterClockwise, sz]
@[sz] theorem sz_Poly_isClockwise (poly : Poly SZ) : Poly.isClockwise poly = Poly.isClockwise (val poly) := by simp only [Poly.isClockwise, sz]
theorem val_clipLoop (f : Vec SZ → Bool) (f' : Vec Ieee → Bool) (h : ∀ p, f p = f' (val p)) (line : Line SZ) (l : List (Vec SZ × Vec SZ))
    (acc : List (Vec SZ)) : val (Poly.clipLoop f line l acc) = Poly.clipLoop f' (val line) (val l) (val acc) := by
  induction l generalizing acc with
  | nil => rfl
  | cons e l ih =>
    obtain ⟨p0, p1⟩ := e
    simp only [Poly.clipLoop, sz, ih, h]
theorem val_lineClipped (f : Vec SZ → Bool) (f' : Vec Ieee → Bool) (h : ∀ p, f p = f' (val p)) (points : List (Vec SZ)) (line : Line SZ) :
    val (Poly.lineClipped f points line) = Poly.lineClipped f' (val points) (val line) := by
  simp only [Poly.lineClipped, val_clipLoop f f' h, sz]
@[sz] theorem sz_Poly_rectClipped (poly : Poly SZ) (r : Rect SZ) : val (Poly.rectClipped poly r) = Poly.rectClipped (val poly) (val r) := by
  rcases poly with ⟨_ | ⟨v, vs⟩⟩
  · simp only [Poly.rectClipped, sz]
  · simp only [Poly.rectClipped, sz_Poly_ofList]
    rw [val_lineClipped _ (fun v => decide ((val r).top ≤ v.y)) (fun p => by simp only [sz]),
      val_lineClipped _ (fun v => decide ((val r).left ≤ v.x)) (fun p => by simp only [sz]),
      val_lineClipped _ (fun v => decide (v.y ≤ (val r).bottom)) (fun p => by simp only [sz]),
      val_lineClipped _ (fun v => decide (v.x ≤ (val r).right)) (fun p => by simp only [sz])]
    simp only [sz]

/-! ## SoccerMath -/

@[sz] theorem sz_SoccerMath_SERVER_EPS  : val (SoccerMath.SERVER_EPS : SZ) = SoccerMath.SERVER_EPS := by simp only [SoccerMath.SERVER_EPS, sz]
@[sz] theorem sz_SoccerMath_kickRate (dist dirDiff power ballSize playerSize margin : SZ) : val (SoccerMath.kickRate dist dirDiff power ballSize playerSize margin) = SoccerMath.kickRate (val dist) (val dirDiff) (val power) (val ballSize) (val playerSize) (val margin) := by
  simp only [SoccerMath.kickRate]
  szc pyDiv ((num 1 / num 4) * (dist - ballSize - playerSize)) margin => r
@[sz] theorem sz_SoccerMath_dirRate (dir back side : SZ) : val (SoccerMath.dirRate dir back side) = SoccerMath.dirRate (val dir) (val back) (val side) := by simp only [SoccerMath.dirRate, sz]
@[sz] theorem sz_SoccerMath_effectiveTurn (moment speed inertia : SZ) : val (SoccerMath.effectiveTurn moment speed inertia) = SoccerMath.effectiveTurn (val moment) (val speed) (val inertia) := by simp only [SoccerMath.effectiveTurn, sz]
@[sz] theorem sz_SoccerMath_finalSpeed (power rate effort decay : SZ) : val (SoccerMath.finalSpeed power rate effort decay) = SoccerMath.finalSpeed (val power) (val rate) (val effort) (val decay) := by simp only [SoccerMath.finalSpeed, sz]
@[sz] theorem sz_SoccerMath_canOverSpeedMax (power rate effort decay speedMax : SZ) : SoccerMath.canOverSpeedMax power rate effort decay speedMax = SoccerMath.canOverSpeedMax (val power) (val rate) (val effort) (val decay) (val speedMax) := by simp only [SoccerMath.canOverSpeedMax, sz]
@[sz] theorem sz_SoccerMath_mathPow (x : SZ) (n : ℤ) : val (SoccerMath.mathPow x n) = SoccerMath.mathPow (val x) n := by simp only [SoccerMath.mathPow, sz]
@[sz] theorem sz_SoccerMath_mathLog (x : SZ) : val (SoccerMath.mathLog x) = SoccerMath.mathLog (val x) := by simp only [SoccerMath.mathLog, sz]
@[sz] theorem sz_SoccerMath_inertiaNStepTravel (vel : Vec SZ) (n : ℤ) (decay : SZ) : val (SoccerMath.inertiaNStepTravel vel n decay) = SoccerMath.inertiaNStepTravel (val vel) n (val decay) := by
  simp only [SoccerMath.inertiaNStepTravel]
  szc SoccerMath.mathPow decay n => r
  szc pyDiv (num 1 - r) (num 1 - decay) => r
@[sz] theorem sz_SoccerMath_inertiaNStepPoint (pos vel : Vec SZ) (n : ℤ) (decay : SZ) : val (SoccerMath.inertiaNStepPoint pos vel n decay) = SoccerMath.inertiaNStepPoint (val pos) (val vel) n (val decay) := by
  simp only [SoccerMath.inertiaNStepPoint]
  szc SoccerMath.inertiaNStepTravel vel n decay => r
@[sz] theorem sz_SoccerMath_inertiaNStepDistance (speed : SZ) (n : ℤ) (decay : SZ) : val (SoccerMath.inertiaNStepDistance speed n decay) = SoccerMath.inertiaNStepDistance (val speed) n (val decay) := by
  simp only [SoccerMath.inertiaNStepDistance]
  szc SoccerMath.mathPow decay n => r
@[sz] theorem sz_SoccerMath_inertiaFinalTravel (vel : Vec SZ) (decay : SZ) : val (SoccerMath.inertiaFinalTravel vel decay) = SoccerMath.inertiaFinalTravel (val vel) (val decay) := by simp only [SoccerMath.inertiaFinalTravel, sz]
@[sz] theorem sz_SoccerMath_inertiaFinalPoint (pos vel : Vec SZ) (decay : SZ) : val (SoccerMath.inertiaFinalPoint pos vel decay) = SoccerMath.inertiaFinalPoint (val pos) (val vel) (val decay) := by
  simp only [SoccerMath.inertiaFinalPoint]
  szc SoccerMath.inertiaFinalTravel vel decay => r
@[sz] theorem sz_SoccerMath_inertiaFinalDistance (speed decay : SZ) : val (SoccerMath.inertiaFinalDistance speed decay) = SoccerMath.inertiaFinalDistance (val speed) (val decay) := by simp only [SoccerMath.inertiaFinalDistance, sz]
@[sz] theorem sz_SoccerMath_rInt (x : SZ) : SoccerMath.rInt x = SoccerMath.rInt (val x) := by simp only [SoccerMath.rInt, sz]
@[sz] theorem sz_SoccerMath_calcLengthGeomSeries (first sum ratio : SZ) : val (SoccerMath.calcLengthGeomSeries first sum ratio) = SoccerMath.calcLengthGeomSeries (val first) (val sum) (val ratio) := by simp only [SoccerMath.calcLengthGeomSeries, sz]
@[sz] theorem sz_SoccerMath_calcFirstTermGeomSeries (sums ratio : SZ) (length : ℤ) : val (SoccerMath.calcFirstTermGeomSeries sums ratio length) = SoccerMath.calcFirstTermGeomSeries (val sums) (val ratio) length := by
  simp only [SoccerMath.calcFirstTermGeomSeries]
  szc SoccerMath.mathPow ratio length => r
@[sz] theorem sz_SoccerMath_bound (a b c : SZ) : val (SoccerMath.bound a b c) = SoccerMath.bound (val a) (val b) (val c) := by simp only [SoccerMath.bound, sz]
@[sz] theorem sz_SoccerMath_minMax (low x high : SZ) : val (SoccerMath.minMax low x high) = SoccerMath.minMax (val low) (val x) (val high) := by simp only [SoccerMath.minMax, sz]
@[sz] theorem sz_SoccerMath_fRangeLoop (stop step : SZ) (n : ℕ) (start : SZ) :
    val (SoccerMath.fRangeLoop stop step n start) = SoccerMath.fRangeLoop (val stop) (val step) n (val start) := by
  induction n generalizing start with
  | zero => unfold SoccerMath.fRangeLoop; simp only [sz]
  | succ n ih => unfold SoccerMath.fRangeLoop; simp only [sz, ih]
@[sz] theorem sz_SoccerMath_fRange (start : SZ) (stop step : Option SZ) (n : ℕ) : val (SoccerMath.fRange start stop step n) = SoccerMath.fRange (val start) (val stop) (val step) n := by
  cases stop <;> cases step <;> simp only [SoccerMath.fRange, Option.getD_none, Option.getD_some, sz]
@[sz] theorem sz_SoccerMath_quantize (v q : SZ) : val (SoccerMath.quantize v q) = SoccerMath.quantize (val v) (val q) := by
  simp only [SoccerMath.quantize]
  szc pyDiv v q => r
@[sz] theorem sz_SoccerMath_quantizeDist (d q : SZ) : val (SoccerMath.quantizeDist d q) = SoccerMath.quantizeDist (val d) (val q) := by
  simp only [SoccerMath.quantizeDist]
  szc SoccerMath.mathLog (d + SoccerMath.SERVER_EPS) => r
  szc SoccerMath.quantize r q => r
@[sz] theorem sz_SoccerMath_unquantizeMin (d q : SZ) : val (SoccerMath.unquantizeMin d q) = SoccerMath.unquantizeMin (val d) (val q) := by
  simp only [SoccerMath.unquantizeMin]
  szc pyDiv d q => r
@[sz] theorem sz_SoccerMath_unquantizeMax (d q : SZ) : val (SoccerMath.unquantizeMax d q) = SoccerMath.unquantizeMax (val d) (val q) := by
  simp only [SoccerMath.unquantizeMax]
  szc pyDiv d q => r
@[sz] theorem sz_SoccerMath_windEffect (speed weight _force _dir windWeight rand : SZ) (err : Vec SZ) : val (SoccerMath.windEffect speed weight _force _dir windWeight rand err) = SoccerMath.windEffect (val speed) (val weight) (val _force) (val _dir) (val windWeight) (val rand) (val err) := by
  simp only [SoccerMath.windEffect]
  szc pyDiv (speed * (Vec.zero : Vec SZ).x * rand) (weight * windWeight) => r
  szc pyDiv (speed * (Vec.zero : Vec SZ).y * rand) (weight * windWeight) => r
  szc pyDiv (speed * (Vec.zero : Vec SZ).x) (weight * windWeight) => r
  szc pyDiv (speed * (Vec.zero : Vec SZ).y) (weight * windWeight) => r
@[sz] theorem sz_SoccerMath_unquantizeError (see q : SZ) : val (SoccerMath.unquantizeError see q) = SoccerMath.unquantizeError (val see) (val q) := by
  simp only [SoccerMath.unquantizeError]
  szc SoccerMath.unquantizeMin see (num 1 / num 10) => r
  szc SoccerMath.mathLog r => r
  szc SoccerMath.unquantizeMin r q => lo
  szc SoccerMath.unquantizeMax see (num 1 / num 10) => r
  szc SoccerMath.mathLog r => r
  szc SoccerMath.unquantizeMax r q => r

/-! ## ConvexHull -/

@[sz] theorem sz_Hull_list2set (l : List (Vec SZ)) : val (Hull.list2set Vec.eq l) = Hull.list2set Vec.eq (val l) := by
  refine val_foldl _ _ (fun s a => ?_) _ _
  simp only [sz]
  refine if_congr (iff_of_eq (congrArg (· = true) ?_)) rfl rfl
  simp only [val, List.any_map]
  rfl
@[sz] theorem sz_Hull_angleSortPredicate (lhs rhs base : Vec SZ) : Hull.angleSortPredicate lhs rhs base = Hull.angleSortPredicate (val lhs) (val rhs) (val base) := by simp only [Hull.angleSortPredicate, sz]
@[sz] theorem sz_Hull_isClockwise (p0 p1 p2 : Vec SZ) : Hull.isClockwise p0 p1 p2 = Hull.isClockwise (val p0) (val p1) (val p2) := by simp only [Hull.isClockwise, sz]
@[sz] theorem sz_Hull_Obj_ofList (pts : List (Vec SZ)) : val (Hull.Obj.ofList pts) = Hull.Obj.ofList (val pts) := by simp only [Hull.Obj.ofList, sz]
@[sz] theorem sz_Hull_Obj_inputPoints (h : Hull.Obj SZ) : val (Hull.Obj.inputPoints h) = Hull.Obj.inputPoints (val h) := by simp only [Hull.Obj.inputPoints, sz]
@[sz] theorem sz_Hull_Obj_vertices (h : Hull.Obj SZ) : val (Hull.Obj.vertices h) = Hull.Obj.vertices (val h) := by simp only [Hull.Obj.vertices, sz]
@[sz] theorem sz_Hull_Obj_getEdges (h : Hull.Obj SZ) : val (Hull.Obj.getEdges h) = Hull.Obj.getEdges (val h) := by simp only [Hull.Obj.getEdges, sz]
@[sz] theorem sz_Hull_Obj_clearResults (h : Hull.Obj SZ) : val (Hull.Obj.clearResults h) = Hull.Obj.clearResults (val h) := by simp only [Hull.Obj.clearResults, sz]
@[sz] theorem sz_Hull_Obj_clear (h : Hull.Obj SZ) : val (Hull.Obj.clear h) = Hull.Obj.clear (val h) := by simp only [Hull.Obj.clear, sz]
@[sz] theorem sz_Hull_Obj_addPoint (h : Hull.Obj SZ) (p : Vec SZ) : val (Hull.Obj.addPoint h p) = Hull.Obj.addPoint (val h) (val p) := by simp only [Hull.Obj.addPoint, sz]
@[sz] theorem sz_Hull_Obj_addPoints (h : Hull.Obj SZ) (ps : List (Vec SZ)) : val (Hull.Obj.addPoints h ps) = Hull.Obj.addPoints (val h) (val ps) := val_foldl _ _ (fun s a => sz_Hull_Obj_addPoint s a) _ _
@[sz] theorem sz_Hull_Obj_toPolygon (h : Hull.Obj SZ) : val (Hull.Obj.toPolygon h) = Hull.Obj.toPolygon (val h) := by simp only [Hull.Obj.toPolygon, sz]
@[sz] theorem sz_Hull_at' (pts : List (Vec SZ)) (i : ℕ) : val (Hull.at' pts i) = Hull.at' (val pts) i := by
  simp only [Hull.at', ← sz_Vec_zero, List.getD_eq_getElem?_getD]
  simp only [val, List.getElem?_map]
  cases pts[i]? <;> rfl
@[sz] theorem sz_Hull_minStep (pts : List (Vec SZ)) (s : ℕ × Vec SZ) (i : ℕ) : val (Hull.minStep pts s i) = Hull.minStep (val pts) (val s) i := by simp only [Hull.minStep, sz]
@[sz] theorem sz_Hull_minPointIndex (pts : List (Vec SZ)) : Hull.minPointIndex pts = Hull.minPointIndex (val pts) := by
  simp only [Hull.minPointIndex]
  rw [val_length pts]
  refine if_congr Iff.rfl rfl (congrArg (fun n : ℕ => (n : ℤ)) ?_)
  have h := val_foldlN (Hull.minStep pts) (Hull.minStep (val pts)) (fun s i => sz_Hull_minStep pts s i) (List.range pts.length) (0, Hull.at' pts 0)
  simp only [sz] at h
  rw [← h]
  rfl
@[sz] theorem sz_Hull_firstCandidate (n cur : ℕ) (used : List ℕ) : Hull.firstCandidate n cur used = Hull.firstCandidate n cur used := by simp only [Hull.firstCandidate, sz]
@[sz] theorem sz_Hull_candStep (pts : List (Vec SZ)) (cur : ℕ) (curP : Vec SZ) (used : List ℕ) (cand i : ℕ) : Hull.candStep pts cur curP used cand i = Hull.candStep (val pts) cur (val curP) used cand i := by simp only [Hull.candStep, sz]
@[sz] theorem sz_Hull_nextIndex (pts : List (Vec SZ)) (cur : ℕ) (used : List ℕ) : Hull.nextIndex pts cur used = Hull.nextIndex (val pts) cur used := by
  simp only [Hull.nextIndex, val_length pts, ← sz_Hull_at']
  congr 1
  funext c i
  exact sz_Hull_candStep _ _ _ _ _ _
@[sz] theorem sz_Hull_wrapLoop (pts : List (Vec SZ)) (minI fuel cur : ℕ) (used : List ℕ) (vs : List (Vec SZ)) :
    val (Hull.wrapLoop pts minI fuel cur used vs) = Hull.wrapLoop (val pts) minI fuel cur used (val vs) := by
  induction fuel generalizing cur used vs with
  | zero => rfl
  | succ n ih => simp only [Hull.wrapLoop, sz, ih]
@[sz] theorem sz_Hull_hullEdges (vs : List (Vec SZ)) : val (Hull.hullEdges vs) = Hull.hullEdges (val vs) := by
  simp only [Hull.hullEdges]
  rw [val_length vs]
  refine (List.map_filterMap ..).trans (List.filterMap_congr fun i _ => ?_)
  simp only [sz]
  split
  · exact congrArg some (by simp only [sz])
  · rfl
@[sz] theorem sz_Hull_wrapping (h : Hull.Obj SZ) : val (Hull.wrapping h) = Hull.wrapping (val h) := by
  simp only [Hull.wrapping]
  rw [← sz_Hull_Obj_clearResults, ← val_input, val_length, ← sz_Hull_minPointIndex]
  generalize h.clearResults = o
  split
  · rfl
  · simp only [sz]
    rw [val_dropLast]
    simp only [sz]
@[sz] theorem sz_Hull_pyGet {α β : Type} [Forget α β] (l : List α) (i : ℤ) : val (Hull.pyGet l i) = Hull.pyGet (val l) i := by
  simp only [Hull.pyGet, val_length l]
  generalize (if i < 0 then i + (l.length : ℤ) else i) = j
  split
  · rfl
  · simp only [val, List.getElem?_map]
    cases l[j.toNat]? <;> rfl
@[sz] theorem sz_Hull_pySet {α β : Type} [Forget α β] (l : List α) (i : ℤ) (a : α) : val (Hull.pySet l i a) = Hull.pySet (val l) i (val a) := by
  simp only [Hull.pySet, val_length l, sz]
  simp only [val, List.map_set]
@[sz] theorem sz_Hull_grahamWhile (vs : List (Vec SZ)) (p : Vec SZ) (fuel : ℕ) (top : ℤ) :
    Hull.grahamWhile vs p fuel top = Hull.grahamWhile (val vs) (val p) fuel top := by
  induction fuel generalizing top with
  | zero => rfl
  | succ n ih =>
    simp only [Hull.grahamWhile]
    rw [← sz_Hull_pyGet, ← sz_Hull_pyGet]
    rcases Hull.pyGet vs (top - 1) with e | a
    · rfl
    rcases Hull.pyGet vs top with e | b
    · rfl
    simp only [bind, Except.bind, sz, ih]
@[sz] theorem sz_Hull_grahamFor (is : List ℕ) (vs : List (Vec SZ)) (top : ℤ) :
    val (Hull.grahamFor is vs top) = Hull.grahamFor is (val vs) top := by
  induction is generalizing vs top with
  | nil => rfl
  | cons i is ih =>
    simp only [Hull.grahamFor]
    rw [val_length vs]
    refine val_bind _ _ _ _ (by simp only [sz]) fun p => ?_
    refine val_bind _ _ _ _ (by rw [sz_Hull_grahamWhile]; exact val_pyErr _) fun t => ?_
    refine val_bind _ _ _ _ (by simp only [sz]) fun tmp => ?_
    refine val_bind _ _ _ _ (by simp only [sz]) fun vi => ?_
    refine val_bind _ _ _ _ (by simp only [sz]) fun ws => ?_
    refine val_bind _ _ _ _ (by simp only [sz]) fun us => ?_
    exact ih _ _
@[sz] theorem sz_Hull_pyDelFrom {α β : Type} [Forget α β] (l : List α) (i : ℤ) : val (Hull.pyDelFrom l i) = Hull.pyDelFrom (val l) i := by
  simp only [Hull.pyDelFrom, val_length l]
  simp only [val, List.map_take]
/-- `srt'` sorts the values as `srt` sorts the signed numbers, for a comparison that ignores the signs of zeros. -/
def SortVal (srt : (Vec SZ → Vec SZ → Bool) → List (Vec SZ) → List (Vec SZ)) (srt' : (Vec Ieee → Vec Ieee → Bool) → List (Vec Ieee) → List (Vec Ieee)) :
    Prop :=
  ∀ lt lt', (∀ a b, lt a b = lt' (val a) (val b)) → ∀ l, val (srt lt l) = srt' lt' (val l)
theorem val_sortFrom (srt : (Vec SZ → Vec SZ → Bool) → List (Vec SZ) → List (Vec SZ)) (srt' : (Vec Ieee → Vec Ieee → Bool) → List (Vec Ieee) → List (Vec Ieee))
    (hs : SortVal srt srt') (pts : List (Vec SZ)) (idx : ℕ) :
    val (Hull.sortFrom srt pts idx) = Hull.sortFrom srt' (val pts) idx := by
  simp only [Hull.sortFrom, val_ite, val_length pts]
  rw [hs _ (fun a b => decide (Hull.angleSortPredicate a b Vec.zero < 0)) (fun a b => by simp only [sz])]
  simp only [← sz_Hull_at']
  simp only [val, List.map_set]
theorem val_graham (srt : (Vec SZ → Vec SZ → Bool) → List (Vec SZ) → List (Vec SZ)) (srt' : (Vec Ieee → Vec Ieee → Bool) → List (Vec Ieee) → List (Vec Ieee))
    (hs : SortVal srt srt') (h : Hull.Obj SZ) : val (Hull.graham srt h) = Hull.graham srt' (val h) := by
  simp only [Hull.graham]
  rw [← sz_Hull_Obj_clearResults, ← val_input, val_length, ← sz_Hull_minPointIndex]
  generalize h.clearResults = o
  split
  · rfl
  · refine val_bind _ _ _ _ (by rw [sz_Hull_grahamFor, val_sortFrom srt srt' hs]) fun r => ?_
    have hr : (val r).2 = r.2 := rfl
    simp only [hr]
    refine val_bind _ _ _ _ (by simp only [sz]) fun p => ?_
    refine val_bind _ _ _ _ (by simp only [sz]) fun q => ?_
    simp only [pure, Except.pure, sz]
@[sz] theorem sz_Hull_directK (pts : List (Vec SZ)) (i j : ℕ) (rel p1 : Vec SZ) (ks : List ℕ) (last : SZ) :
    val (Hull.directK pts i j rel p1 ks last) = Hull.directK (val pts) i j (val rel) (val p1) ks (val last) := by
  induction ks generalizing last with
  | nil => rfl
  | cons k ks ih => simp only [Hull.directK, sz, ih]
@[sz] theorem sz_Hull_directPairs (n : ℕ) : Hull.directPairs n = Hull.directPairs n := by simp only [Hull.directPairs, sz]
@[sz] theorem sz_Hull_directStep (pts : List (Vec SZ)) (s : List (Vec SZ) × List (Seg SZ)) (ij : ℕ × ℕ) : val (Hull.directStep pts s ij) = Hull.directStep (val pts) (val s) ij := by
  simp only [Hull.directStep]
  rw [val_length pts]
  rw [← sz_Hull_at', ← sz_Hull_at', ← sz_Vec_sub, show (num 0 : Ieee) = val (num 0 : SZ) from rfl, ← sz_Hull_directK]
  rcases Hull.directK pts ij.1 ij.2 ((Hull.at' pts ij.2).sub (Hull.at' pts ij.1)) (Hull.at' pts ij.1) (List.range pts.length) (num 0) with _ | r
  · rfl
  · simp only [sz]
theorem val_direct (srt : (Vec SZ → Vec SZ → Bool) → List (Vec SZ) → List (Vec SZ)) (srt' : (Vec Ieee → Vec Ieee → Bool) → List (Vec Ieee) → List (Vec Ieee))
    (hs : SortVal srt srt') (h : Hull.Obj SZ) : val (Hull.direct srt h) = Hull.direct srt' (val h) := by
  simp only [Hull.direct]
  rw [← sz_Hull_Obj_clearResults, ← val_input, val_length]
  generalize h.clearResults = o
  split
  · rfl
  · have h := val_foldlN (Hull.directStep o.input) (Hull.directStep (val o.input)) (fun s i => sz_Hull_directStep o.input s i)
      (Hull.directPairs o.input.length) ([], [])
    simp only [sz] at h
    simp only [sz, ← h]
    generalize (Hull.directPairs o.input.length).foldl (Hull.directStep o.input) ([], []) = s
    obtain ⟨a, b⟩ := s
    simp only [sz]
    rw [hs _ (fun a b => decide (Hull.angleSortPredicate a b Vec.zero < 0)) (fun a b => by simp only [sz])]
theorem val_compute (srt : (Vec SZ → Vec SZ → Bool) → List (Vec SZ) → List (Vec SZ)) (srt' : (Vec Ieee → Vec Ieee → Bool) → List (Vec Ieee) → List (Vec Ieee))
    (hs : SortVal srt srt') (h : Hull.Obj SZ) (m : Hull.Method) :
    val (Hull.compute srt h m) = Hull.compute srt' (val h) m := by
  cases m
  · exact congrArg Except.ok (val_direct srt srt' hs h)
  · exact congrArg Except.ok (sz_Hull_wrapping h)
  · exact val_graham srt srt' hs h

/-! ## Wrappers -/

@[sz] theorem sz_Tri_assign3 (_t : Tri SZ) (a b c : Vec SZ) : val (Tri.assign3 _t a b c) = Tri.assign3 (val _t) (val a) (val b) (val c) := by simp only [Tri.assign3, sz]
@[sz] theorem sz_Tri_assignSeg (_t : Tri SZ) (s : Seg SZ) (c : Vec SZ) : val (Tri.assignSeg _t s c) = Tri.assignSeg (val _t) (val s) (val c) := by simp only [Tri.assignSeg, sz]
@[sz] theorem sz_Tri_getA (t : Tri SZ) : val (Tri.getA t) = Tri.getA (val t) := by simp only [Tri.getA, sz]
@[sz] theorem sz_Tri_getB (t : Tri SZ) : val (Tri.getB t) = Tri.getB (val t) := by simp only [Tri.getB, sz]
@[sz] theorem sz_Tri_getC (t : Tri SZ) : val (Tri.getC t) = Tri.getC (val t) := by simp only [Tri.getC, sz]
@[sz] theorem sz_Tri_methodSignedArea (t : Tri SZ) : val (Tri.methodSignedArea t) = Tri.methodSignedArea (val t) := by simp only [Tri.methodSignedArea, sz]
@[sz] theorem sz_Tri_methodDsa (t : Tri SZ) : val (Tri.methodDsa t) = Tri.methodDsa (val t) := by simp only [Tri.methodDsa, sz]
@[sz] theorem sz_Tri_methodCcw (t : Tri SZ) : Tri.methodCcw t = Tri.methodCcw (val t) := by simp only [Tri.methodCcw, sz]
@[sz] theorem sz_Tri_centroid (t : Tri SZ) : val (Tri.centroid t) = Tri.centroid (val t) := by simp only [Tri.centroid, sz]
@[sz] theorem sz_Tri_circumcenter (t : Tri SZ) : val (Tri.circumcenter t) = Tri.circumcenter (val t) := by simp only [Tri.circumcenter, sz]
@[sz] theorem sz_Tri_orthocenter (t : Tri SZ) : val (Tri.orthocenter t) = Tri.orthocenter (val t) := by simp only [Tri.orthocenter, sz]
@[sz] theorem sz_Poly_boundingBoxCenter (p : Poly SZ) : val (Poly.boundingBoxCenter p) = Poly.boundingBoxCenter (val p) := by
  simp only [Poly.boundingBoxCenter]
  szc p.boundingBox => r
@[sz] theorem sz_Poly_xLessEqual (thr : SZ) (v : Vec SZ) : Poly.xLessEqual thr v = Poly.xLessEqual (val thr) (val v) := by simp only [Poly.xLessEqual, sz]
@[sz] theorem sz_Poly_xMoreEqual (thr : SZ) (v : Vec SZ) : Poly.xMoreEqual thr v = Poly.xMoreEqual (val thr) (val v) := by simp only [Poly.xMoreEqual, sz]
@[sz] theorem sz_Poly_yLessEqual (thr : SZ) (v : Vec SZ) : Poly.yLessEqual thr v = Poly.yLessEqual (val thr) (val v) := by simp only [Poly.yLessEqual, sz]
@[sz] theorem sz_Poly_yMoreEqual (thr : SZ) (v : Vec SZ) : Poly.yMoreEqual thr v = Poly.yMoreEqual (val thr) (val v) := by simp only [Poly.yMoreEqual, sz]
@[sz] theorem sz_Mat_assign (_m : Mat SZ) (a b c d x y : SZ) : val (Mat.assign _m a b c d x y) = Mat.assign (val _m) (val a) (val b) (val c) (val d) (val x) (val y) := by simp only [Mat.assign, sz]
@[sz] theorem sz_Line_copy (l : Line SZ) : val (Line.copy l) = Line.copy (val l) := by simp only [Line.copy, sz]
@[sz] theorem sz_Ray_copy (r : Ray SZ) : val (Ray.copy r) = Ray.copy (val r) := by simp only [Ray.copy, sz]
@[sz] theorem sz_Vec_setXY (v : Vec SZ) (x y : SZ) : val (Vec.setXY v x y) = Vec.setXY (val v) (val x) (val y) := by simp only [Vec.setXY, sz]
@[sz] theorem sz_Vec_innerProductStatic (v w : Vec SZ) : val (Vec.innerProductStatic v w) = Vec.innerProductStatic (val v) (val w) := by simp only [Vec.innerProductStatic, sz]
@[sz] theorem sz_Vec_outerProductStatic (v w : Vec SZ) : val (Vec.outerProductStatic v w) = Vec.outerProductStatic (val v) (val w) := by simp only [Vec.outerProductStatic, sz]
@[sz] theorem sz_Circle_intersectionWithLine (c : Circle SZ) (l : Line SZ) : val (Circle.intersectionWithLine c l) = Circle.intersectionWithLine (val c) (val l) := by simp only [Circle.intersectionWithLine, sz]
@[sz] theorem sz_Circle_intersectionWithSegment (c : Circle SZ) (s : Seg SZ) : val (Circle.intersectionWithSegment c s) = Circle.intersectionWithSegment (val c) (val s) := by simp only [Circle.intersectionWithSegment, sz]
@[sz] theorem sz_Circle_intersectionWithCircle (c o : Circle SZ) : val (Circle.intersectionWithCircle c o) = Circle.intersectionWithCircle (val c) (val o) := by simp only [Circle.intersectionWithCircle, sz]
@[sz] theorem sz_Hull_SortKey_lt (s o : Hull.SortKey SZ) : Hull.SortKey.lt s o = Hull.SortKey.lt (val s) (val o) := by simp only [Hull.SortKey.lt, sz]
@[sz] theorem sz_Hull_SortKey_gt (s o : Hull.SortKey SZ) : Hull.SortKey.gt s o = Hull.SortKey.gt (val s) (val o) := by simp only [Hull.SortKey.gt, sz]
@[sz] theorem sz_Hull_SortKey_eq (s o : Hull.SortKey SZ) : Hull.SortKey.eq s o = Hull.SortKey.eq (val s) (val o) := by simp only [Hull.SortKey.eq, sz]
@[sz] theorem sz_Hull_SortKey_le (s o : Hull.SortKey SZ) : Hull.SortKey.le s o = Hull.SortKey.le (val s) (val o) := by simp only [Hull.SortKey.le, sz]
@[sz] theorem sz_Hull_SortKey_ge (s o : Hull.SortKey SZ) : Hull.SortKey.ge s o = Hull.SortKey.ge (val s) (val o) := by simp only [Hull.SortKey.ge, sz]
@[sz] theorem sz_Hull_SortKey_ne (s o : Hull.SortKey SZ) : Hull.SortKey.ne s o = Hull.SortKey.ne (val s) (val o) := by simp only [Hull.SortKey.ne, sz]

end PyrusGeom
