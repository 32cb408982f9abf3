import Verif.Model.Geometries

/-! `__repr__` and `__str__` of the geometries.

Texts are lists of characters.  The two methods of a class differ only in the printer of scalars (`repr` or `str` of
the numbers, which are not part of the code), so one definition with the printer as a parameter models both.
`'...[{}]'.format(text)` replaces the pair of braces by the text; the rest of the format strings have no braces as
long as the printer of scalars writes none (this matters for `Polygon`, where the border is already part of the
format string). -/

namespace Rene.Text
open Rene

/-- `', '.join(...)`. -/
def join : List (List Char) → List Char
  | [] => []
  | [t] => t
  | t :: u :: rest => t ++ ',' :: ' ' :: join (u :: rest)

variable (scalar : ℚ → List Char)

/-- `rene/_geometries/base_point.py` 90-94: `__repr__`, `__str__`. -/
def point (p : Point) : List Char := "Point(".toList ++ (scalar p.x ++ ", ".toList ++ (scalar p.y ++ ")".toList))

/-- `rene/_geometries/base_segment.py` 244-248: `__repr__`, `__str__`. -/
def segment (s : Segment) : List Char :=
  "Segment(".toList ++ (point scalar s.start ++ ", ".toList ++ (point scalar s.end ++ ")".toList))

/-- `rene/_geometries/base_box.py` 431-441: `__repr__`, `__str__`. -/
def box (b : Box) : List Char :=
  "Box(".toList ++ (scalar b.minX ++ ", ".toList ++ (scalar b.maxX ++ ", ".toList ++
    (scalar b.minY ++ ", ".toList ++ (scalar b.maxY ++ ")".toList))))

/-- `rene/_geometries/base_contour.py` 311-319: `__repr__`, `__str__`. -/
def contour (c : Contour) : List Char := "Contour([".toList ++ (join (c.vertices.map (point scalar)) ++ "])".toList)

/-- `rene/_geometries/base_multisegment.py` 276-284: `__repr__`, `__str__`. -/
def multisegment (m : Multisegment) : List Char :=
  "Multisegment([".toList ++ (join (m.segments.map (segment scalar)) ++ "])".toList)

/-- `rene/_geometries/base_polygon.py` 256-264: `__repr__`, `__str__`. -/
def polygon (p : Polygon) : List Char :=
  "Polygon(".toList ++ (contour scalar p.border ++ ", [".toList ++ (join (p.holes.map (contour scalar)) ++ "])".toList))

/-- `rene/_geometries/base_multipolygon.py` 259-267: `__repr__`, `__str__`. -/
def multipolygon (m : Multipolygon) : List Char :=
  "Multipolygon([".toList ++ (join (m.polygons.map (polygon scalar)) ++ "])".toList)

/-- `rene/_geometries/base_empty.py` 60-61: `__repr__` (which is also `__str__`). -/
def empty : List Char := "Empty()".toList

/-- `__repr__`, `__str__` of any compound geometry (the methods cited above). -/
def geom : Geom → List Char
  | .empty => empty
  | .segment s => segment scalar s
  | .multisegment m => multisegment scalar m
  | .contour c => contour scalar c
  | .polygon p => polygon scalar p
  | .multipolygon m => multipolygon scalar m

end Rene.Text
