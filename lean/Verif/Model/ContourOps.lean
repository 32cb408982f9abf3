import Verif.Model.Geometries
import Verif.Model.SegmentEq
import Mathlib.Data.Finset.Image

/-! Model of contour equality, hashing and orientation, of location in regions, and of equality and
hashing of the other compound geometries. -/

namespace Rene

/-! ### Equality and hashing of contours -/

/-- `rene/_geometries/base_contour.py` 454-473:
`_are_non_empty_unique_sequences_rotationally_equivalent`; slices are written with `take`, `drop` and
`reverse`: `left[1 : k]` is `(left.take k).drop 1`, `right[len(right) - 1 : index : -1]` is the reversed
tail after `index`.  The two assertions on lines 457-458 give `false` here (contours are not empty). -/
def areRotationallyEquivalent (left right : List Point) : Bool :=
  match left with
  | [] => false
  | first :: _ =>
    if left.length ≠ right.length then false
    else if first ∉ right then false
    else
      let index := right.idxOf first
      (decide ((left.take (left.length - index)).drop 1 = right.drop (index + 1))
        && decide (left.drop (left.length - index) = right.take index))
      || (decide ((left.take (index + 1)).drop 1 = (right.take index).reverse)
        && decide (left.drop (index + 1) = (right.drop (index + 1)).reverse))

/-- `rene/_geometries/base_contour.py` 236-243: `BaseContour.__eq__` for two contours. -/
def Contour.eqB (self other : Contour) : Bool := areRotationallyEquivalent self.vertices other.vertices

/-- `rene/_utils.py` 367-368: `to_arg_min`: the first position of the least value
(`min(range(len(values)), key=values.__getitem__)` keeps the earliest minimum). -/
def toArgMin : List Point → Nat
  | [] => 0
  | [_] => 0
  | a :: b :: rest =>
    let i := toArgMin (b :: rest)
    if ((b :: rest).getD i a).ltB a then i + 1 else 0

/-- `rene/_utils.py` 423-433: `to_contour_orientation`; Python's index `-1` is the last position, so
`min_vertex_index - 1` is taken modulo the length. -/
def toContourOrientation (vertices : List Point) (minVertexIndex : Nat) : Orientation :=
  let n := vertices.length
  let get := fun i => vertices.getD i ⟨0, 0⟩
  orient (get ((minVertexIndex + n - 1) % n)) (get minVertexIndex) (get ((minVertexIndex + 1) % n))

/-- `rene/_geometries/base_contour.py` 67-72: `BaseContour.orientation`. -/
def Contour.orientation (c : Contour) : Orientation := toContourOrientation c.vertices (toArgMin c.vertices)

/-- `rene/_geometries/base_contour.py` 245-262: the tuple hashed by `BaseContour.__hash__`. -/
def contourHashKey (vertices : List Point) : List Point :=
  let i := toArgMin vertices
  if toContourOrientation vertices i = .clockwise then
    (vertices.drop i).take 1 ++ (vertices.take i).reverse ++ (vertices.drop (i + 1)).reverse
  else vertices.drop i ++ vertices.take i

/-- `rene/_geometries/base_contour.py` 245-262: `BaseContour.__hash__`. -/
def Contour.hashKey (c : Contour) : List Point := contourHashKey c.vertices

/-- `rene/_utils.py` 37-58: `are_contour_vertices_non_degenerate`, first conjunct (lines 43-47). -/
def noCollinearTriples : List Point → Bool
  | a :: b :: c :: rest => decide (orient a b c ≠ .collinear) && noCollinearTriples (b :: c :: rest)
  | _ => true

/-- `rene/_utils.py` 37-58: `are_contour_vertices_non_degenerate`. -/
def areContourVerticesNonDegenerate (vertices : List Point) : Bool :=
  let n := vertices.length
  let get := fun i => vertices.getD i ⟨0, 0⟩
  noCollinearTriples vertices
    && (decide (n ≤ 3)
      || (decide (orient (get (n - 2)) (get (n - 1)) (get 0) ≠ .collinear)
        && decide (orient (get (n - 1)) (get 0) (get 1) ≠ .collinear)))

/-- `rene/_utils.py` 342-343: `rotate_sequence`. -/
def rotateSequence : List Point → List Point
  | [] => []
  | a :: rest => a :: rest.reverse

/-- `rene/_utils.py` 449-468: `to_oriented_segments`. -/
def toOrientedSegments (vertices : List Point) (target : Orientation) : List Segment :=
  toContourSegments
    (if toContourOrientation vertices (toArgMin vertices) = target then vertices
     else rotateSequence vertices)

/-! ### Frozen sets of components -/

/-- Equality of `frozenset(first) == frozenset(second)` for elements whose `==` is `eq`: every element of
one is equal to an element of the other. (CPython compares sizes and then membership by hash and `==`;
for elements with consistent `==` and hash this is the same.) -/
def frozensetEq {α : Type} (eq : α → α → Bool) (first second : List α) : Bool :=
  first.all (fun x => second.any (fun y => eq x y)) && second.all (fun y => first.any (fun x => eq y x))

/-- `rene/_geometries/base_multisegment.py` 219-224: `BaseMultisegment.__eq__`. -/
def Multisegment.eqB (self other : Multisegment) : Bool :=
  frozensetEq Segment.eqB self.segments other.segments

/-- `rene/_geometries/base_multisegment.py` 226-227: `BaseMultisegment.__hash__`
(the hash of a frozenset is a function of the set of hashes of its elements). -/
def Multisegment.hashKey (self : Multisegment) : Finset (Finset Point) :=
  (self.segments.map Segment.hashKey).toFinset

/-- `rene/_geometries/base_polygon.py` 193-202: `BasePolygon.__eq__`. -/
def Polygon.eqB (self other : Polygon) : Bool :=
  self.border.eqB other.border && decide (self.holes.length = other.holes.length)
    && frozensetEq Contour.eqB self.holes other.holes

/-- `rene/_geometries/base_polygon.py` 204-205: `BasePolygon.__hash__`. -/
def Polygon.hashKey (self : Polygon) : List Point × Finset (List Point) :=
  (self.border.hashKey, (self.holes.map Contour.hashKey).toFinset)

/-- `rene/_geometries/base_multipolygon.py` 200-205: `BaseMultipolygon.__eq__`. -/
def Multipolygon.eqB (self other : Multipolygon) : Bool :=
  frozensetEq Polygon.eqB self.polygons other.polygons

/-- `rene/_geometries/base_multipolygon.py` 207-208: `BaseMultipolygon.__hash__`. -/
def Multipolygon.hashKey (self : Multipolygon) : Finset (List Point × Finset (List Point)) :=
  (self.polygons.map Polygon.hashKey).toFinset

/-! ### Location in regions, polygons, multipolygons -/

/-- `rene/_utils.py` 231-234: does the horizontal ray to the right of `point` cross the edge? -/
def crossesRay (start end_ point : Point) : Bool :=
  (decide (start.y > point.y) != decide (end_.y > point.y))
    && (decide (end_.y > start.y) == decide (orient start end_ point = .counterclockwise))

/-- `rene/_utils.py` 223-236: the loop of `locate_point_in_region`. -/
def locateInEdges (point : Point) : Bool → List Segment → Location
  | isPointInside, [] => if isPointInside then .interior else .exterior
  | isPointInside, edge :: rest =>
    if locatePointInSegment edge.start edge.end point = .boundary then .boundary
    else locateInEdges point
      (if crossesRay edge.start edge.end point then !isPointInside else isPointInside) rest

/-- `rene/_utils.py` 216-236: `locate_point_in_region`. -/
def locatePointInRegion (border : Contour) (point : Point) : Location :=
  locateInEdges point false border.segments

/-- `rene/_geometries/base_polygon.py` 58-65: the loop over holes of `BasePolygon.locate`. -/
def locateInHoles (point : Point) : List Contour → Location
  | [] => .interior
  | hole :: rest =>
    match locatePointInRegion hole point with
    | .interior => .exterior
    | .boundary => .boundary
    | .exterior => locateInHoles point rest

/-- `rene/_geometries/base_polygon.py` 53-66: `BasePolygon.locate`. -/
def Polygon.locate (p : Polygon) (point : Point) : Location :=
  match locatePointInRegion p.border point with
  | .interior => locateInHoles point p.holes
  | location => location

/-- `rene/_geometries/base_multipolygon.py` 69-74: `BaseMultipolygon.locate`. -/
def locateInPolygons (point : Point) : List Polygon → Location
  | [] => .exterior
  | p :: rest => if p.locate point ≠ .exterior then p.locate point else locateInPolygons point rest

/-- `rene/_geometries/base_multipolygon.py` 69-74: `BaseMultipolygon.locate`. -/
def Multipolygon.locate (m : Multipolygon) (point : Point) : Location := locateInPolygons point m.polygons

end Rene
