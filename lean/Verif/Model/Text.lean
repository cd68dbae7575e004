import Verif.Model.ConvexHull
import Verif.Model.Circle
import Verif.Model.Matrix
import Verif.Model.Ray
import Verif.Model.Sector

/-! # Text of objects: `__repr__` and `to_str` of every class, and `region_2d.py`

A text is a list of characters. `str x` stands for `str(x)` of a number, `str3 x` for `str(round(x, 3))`; both are
parameters. Python strings are immutable, so `to_str(ostr)` cannot change the string of the caller: the model is the
returned value, `none` for `None`. -/

namespace PyrusGeom

variable {K : Type} (str : K → List Char)

/-- `", ".join(l)` as in the text of a list. -/
def joinComma : List (List Char) → List Char
  | [] => []
  | [t] => t
  | t :: u :: l => t ++ ", ".toList ++ joinComma (u :: l)

/-- `str` of a list with the texts of its elements. -/
def listRepr (l : List (List Char)) : List Char := "[".toList ++ joinComma l ++ "]".toList

/-- `AngleDeg.__repr__`, angle_deg.py:336-342 -/
def AngleDeg.repr (a : AngleDeg K) : List Char := str a.deg

/-- `Vector2D.__repr__`, vector_2d.py:583-584 -/
def Vec.repr (v : Vec K) : List Char := "(".toList ++ str v.x ++ ",".toList ++ str v.y ++ ")".toList

/-- `Circle2D.__repr__`, circle_2d.py:293-299 -/
def Circle.repr (c : Circle K) : List Char := "(".toList ++ c.center.repr str ++ " , ".toList ++ str c.radius ++ ")".toList

/-- `Circle2D.to_str`, circle_2d.py:301-308: `ostr += ...` rebinds a local name, nothing is returned. -/
def Circle.toStr (_ : Circle K) (_ : List Char) : Option (List Char) := none

/-- `Segment2D.__repr__`, segment_2d.py:537-543 -/
def Seg.repr (s : Seg K) : List Char := "[".toList ++ s.origin.repr str ++ ",".toList ++ s.terminal.repr str ++ "]".toList

/-- `Segment2D.to_str`, segment_2d.py:545-552: `ostr += ...` rebinds a local name, nothing is returned. -/
def Seg.toStr (_ : Seg K) (_ : List Char) : Option (List Char) := none

/-- `Triangle2D.__repr__`, triangle_2d.py:499-505 -/
def Tri.repr (t : Tri K) : List Char :=
  "[".toList ++ t.a.repr str ++ ",".toList ++ t.b.repr str ++ ",".toList ++ t.c.repr str ++ "]".toList

/-- `Triangle2D.to_str`, triangle_2d.py:507-514: declared to return `str`, returns nothing. -/
def Tri.toStr (_ : Tri K) (_ : List Char) : Option (List Char) := none

/-- `Line2D.__repr__`, line_2d.py:297-306 -/
def Line.repr [NatCast K] [BEq K] (l : Line K) : List Char :=
  if l.c == num 0 then "(".toList ++ str l.a ++ " X + ".toList ++ str l.b ++ " Y = 0)".toList
  else "(".toList ++ str l.a ++ " X + ".toList ++ str l.b ++ " Y + ".toList ++ str l.c ++ " = 0)".toList

/-- `Matrix2D.__repr__`, matrix_2d.py:368-374 -/
def Mat.repr (m : Mat K) : List Char := listRepr ([m.m11, m.m12, m.m21, m.m22, m.dx, m.dy].map str)

/-- `Polygon2D.__repr__`, polygon_2d.py:464-470 -/
def Poly.repr (p : Poly K) : List Char := "(".toList ++ listRepr (p.vertices.map (Vec.repr str)) ++ ")".toList

/-- `Ray2D.__repr__`, ray_2d.py:153-159 -/
def Ray.repr (r : Ray K) : List Char := r.origin.repr str ++ " dir : ".toList ++ r.dir.repr str

/-- `Size2D.__repr__`, size_2d.py:101-107 -/
def Size.repr (s : Size K) : List Char := "[len:".toList ++ str s.length ++ ",wid:".toList ++ str s.width ++ "]".toList

/-- `Rect2D.__repr__`, rect_2d.py:850-856 -/
def Rect.repr (r : Rect K) : List Char :=
  "[topleft:".toList ++ r.topLeft.repr str ++ ",len:".toList ++ str r.size.length ++ ",wid:".toList ++ str r.size.width ++
    "]".toList

/-- `Rect2D.to_str`, rect_2d.py:858-866. The literal goes over two lines: the twelve blanks of the indentation and a
stray `f` are part of the text. -/
def Rect.toStr [Add K] (str3 : K → List Char) (r : Rect K) (ostr : List Char) : Option (List Char) :=
  some (ostr ++ ("(rect ".toList ++ str3 r.left ++ " ".toList ++ str3 r.top ++ "             f".toList ++ str3 r.right ++
    " ".toList ++ str3 r.bottom ++ ")".toList))

/-- `Sector2D.__repr__`, sector_2d.py:197-204. The literal goes over two lines. -/
def Sector.repr (s : Sector K) : List Char :=
  "[v(".toList ++ s.center.repr str ++ ") a(".toList ++ s.start.repr str ++ ", ".toList ++ s.stop.repr str ++
    ")          r(".toList ++ str s.minR ++ ", ".toList ++ str s.maxR ++ ")]".toList

/-- `ConvexHull.__repr__`, convex_hull.py:444-450 -/
def Hull.Obj.repr (h : Obj K) : List Char :=
  "(".toList ++ listRepr (h.vertices.map (Vec.repr str)) ++ " , ".toList ++ listRepr (h.getEdges.map (Seg.repr str)) ++
    ")".toList

/-- `Region2D.area` and `Region2D.contains`, region_2d.py:11-30: the bodies are empty, so both return `None`
(`Option.none`). Polygon2D, Rect2D, Sector2D and Triangle2D override both. -/
def Region.area : Option K := none

/-- See `Region.area`. -/
def Region.contains (_ : Vec K) : Option Bool := none

end PyrusGeom
