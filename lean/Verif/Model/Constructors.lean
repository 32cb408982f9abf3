import Verif.Model.Geometries

/-! The constructors of the geometries in `rene/_exact`, as calls with positional arguments. -/

namespace Rene.Constructors
open Rene

/-- The classes of `rene/_exact` (the modules cited at `construct`). -/
inductive Class
  | point | segment | box | contour | multisegment | polygon | multipolygon | empty
  deriving DecidableEq, Repr

/-- Python values which can be arguments or results of the constructors (of the classes in `rene/_exact`): coordinates,
points, boxes, compound geometries and sequences. -/
inductive Value
  | num (q : ℚ)
  | point (p : Point)
  | box (b : Box)
  | geom (g : Geom)
  | list (items : List Value)

/-- The points among the values (annotations of `rene/_exact/contour.py` 37). -/
def Value.point? : Value → Option Point
  | .point p => some p
  | _ => none

/-- The segments among the values (annotations of `rene/_exact/multisegment.py` 35). -/
def Value.segment? : Value → Option Segment
  | .geom (.segment s) => some s
  | _ => none

/-- The contours among the values (annotations of `rene/_exact/polygon.py` 40-45). -/
def Value.contour? : Value → Option Contour
  | .geom (.contour c) => some c
  | _ => none

/-- The polygons among the values (annotations of `rene/_exact/multipolygon.py` 35). -/
def Value.polygon? : Value → Option Polygon
  | .geom (.polygon p) => some p
  | _ => none

/-- `__new__` of the classes, with `none` for a raised exception: `rene/_exact/point.py` 34-37,
`rene/_exact/segment.py` 37-42, `rene/_exact/box.py` 46-61, `rene/_exact/contour.py` 37-49,
`rene/_exact/multisegment.py` 35-44, `rene/_exact/polygon.py` 40-48, `rene/_exact/multipolygon.py` 35-44,
`rene/_exact/empty.py` 25-26; the numbers are those of `rene/_constants.py` 5-7.  Simplified: Python does not check the
types of arguments, here arguments against the annotations give `none`. -/
def construct : Class → List Value → Option Value
  | .point, [.num x, .num y] => some (.point ⟨x, y⟩)
  | .segment, [.point start, .point end_] => some (.geom (.segment ⟨start, end_⟩))
  | .box, [.num minX, .num maxX, .num minY, .num maxY] =>
    some (.box { minX := minX, maxX := maxX, minY := minY, maxY := maxY })
  | .contour, [.list vertices] =>
    (vertices.mapM Value.point?).bind fun vertices =>
      if vertices.length < 3 then none else some (.geom (.contour ⟨vertices⟩))
  | .multisegment, [.list segments] =>
    (segments.mapM Value.segment?).bind fun segments =>
      if segments.length < 2 then none else some (.geom (.multisegment ⟨segments⟩))
  | .polygon, [.geom (.contour border), .list holes] =>
    (holes.mapM Value.contour?).bind fun holes => some (.geom (.polygon ⟨border, holes⟩))
  | .multipolygon, [.list polygons] =>
    (polygons.mapM Value.polygon?).bind fun polygons =>
      if polygons.length < 2 then none else some (.geom (.multipolygon ⟨polygons⟩))
  | .empty, [] => some (.geom .empty)
  | _, _ => none

end Rene.Constructors
