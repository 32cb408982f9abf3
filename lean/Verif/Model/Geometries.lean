import Verif.Model.Basic

/-! Model of boxes, contours, multisegments, polygons, multipolygons and their bounding boxes. -/

namespace Rene

/-- `rene/_geometries/base_box.py` 29-35: `BaseBox.covers`. -/
def Box.covers (self other : Box) : Bool :=
  decide (other.maxX < self.maxX) && decide (other.maxY < self.maxY)
    && decide (self.minX < other.minX) && decide (self.minY < other.minY)

/-- `rene/_geometries/base_box.py` 37-43: `BaseBox.disjoint_with`. -/
def Box.disjointWith (self other : Box) : Bool :=
  decide (self.maxX < other.minX) || decide (self.maxY < other.minY)
    || decide (other.maxX < self.minX) || decide (other.maxY < self.minY)

/-- `rene/_geometries/base_box.py` 45-71: `BaseBox.enclosed_by`. -/
def Box.enclosedBy (self other : Box) : Bool :=
  let product : Nat :=
    (if self.maxX = other.maxX then 1 else if self.maxX < other.maxX then 2 else 0)
    * (if self.maxY = other.maxY then 1 else if self.maxY < other.maxY then 2 else 0)
    * (if self.minX = other.minX then 1 else if self.minX > other.minX then 2 else 0)
    * (if self.minY = other.minY then 1 else if self.minY > other.minY then 2 else 0)
  decide (2 ≤ product) && decide (product ≤ 8)

/-- `rene/_geometries/base_box.py` 73-99: `BaseBox.encloses`. -/
def Box.encloses (self other : Box) : Bool :=
  let product : Nat :=
    (if self.maxX = other.maxX then 1 else if self.maxX > other.maxX then 2 else 0)
    * (if self.maxY = other.maxY then 1 else if self.maxY > other.maxY then 2 else 0)
    * (if self.minX = other.minX then 1 else if self.minX < other.minX then 2 else 0)
    * (if self.minY = other.minY then 1 else if self.minY < other.minY then 2 else 0)
  decide (2 ≤ product) && decide (product ≤ 8)

/-- `rene/_geometries/base_box.py` 101-107: `BaseBox.equals_to`; also `BaseBox.__eq__` 416-426. -/
def Box.equalsTo (self other : Box) : Bool :=
  decide (self.minX = other.minX) && decide (self.maxX = other.maxX)
    && decide (self.minY = other.minY) && decide (self.maxY = other.maxY)

/-- `rene/_geometries/base_box.py` 109-110: `BaseBox.is_valid`. -/
def Box.isValid (self : Box) : Bool := decide (self.minX ≤ self.maxX) && decide (self.minY ≤ self.maxY)

/-- `rene/_geometries/base_box.py` 112-138: `BaseBox.overlaps`. -/
def Box.overlaps (self other : Box) : Bool :=
  if ¬ (self.minX < other.maxX ∧ other.minX < self.maxX ∧ self.minY < other.maxY
      ∧ other.minY < self.maxY) then false
  else if self.maxX > other.maxX then
    decide (other.minX < self.minX ∨ other.minY < self.minY ∨ self.maxY < other.maxY)
  else if self.maxX < other.maxX then
    decide (self.minX < other.minX ∨ self.minY < other.minY ∨ other.maxY < self.maxY)
  else if self.minX > other.minX then
    decide (self.minY < other.minY ∨ other.maxY < self.maxY)
  else if self.minX < other.minX then
    decide (other.minY < self.minY ∨ self.maxY < other.maxY)
  else
    decide ((other.minY < self.minY ∧ other.maxY < self.maxY)
      ∨ (self.minY < other.minY ∧ self.maxY < other.maxY))

/-- `rene/_geometries/base_box.py` 393-400: `BaseBox.touches`. -/
def Box.touches (self other : Box) : Bool :=
  decide (((self.minX = other.maxX ∨ self.maxX = other.minX)
      ∧ (self.minY ≤ other.maxY ∧ other.minY ≤ self.maxY))
    ∨ ((self.minX ≤ other.maxX ∧ other.minX ≤ self.maxX)
      ∧ (self.minY = other.maxY ∨ other.minY = self.maxY)))

/-- `rene/_geometries/base_box.py` 402-408: `BaseBox.within`. -/
def Box.within (self other : Box) : Bool :=
  decide (self.maxX < other.maxX) && decide (self.maxY < other.maxY)
    && decide (other.minX < self.minX) && decide (other.minY < self.minY)

/-- `rene/_geometries/base_box.py` 428-429: `BaseBox.__hash__` hashes this tuple. -/
def Box.hashKey (b : Box) : ℚ × ℚ × ℚ × ℚ := (b.minX, b.maxX, b.minY, b.maxY)

/-- `rene/_geometries/base_box.py` 140-378: `BaseBox.relate_to`, branch by branch.  Each `assert` in
the code states the remaining case of a trichotomy and is dropped. -/
def Box.relateTo (self other : Box) : Relation :=
  if self.maxX = other.maxX then
    if self.minX = other.minX then
      if self.maxY = other.maxY then
        if self.minY = other.minY then .equal
        else if self.minY > other.minY then .enclosed
        else .encloses
      else if self.maxY > other.maxY then
        if self.minY = other.maxY then .touch
        else if self.minY > other.maxY then .disjoint
        else if self.minY > other.minY then .overlap else .encloses
      else if self.maxY = other.minY then .touch
      else if self.maxY > other.minY then
        if self.minY < other.minY then .overlap else .enclosed
      else .disjoint
    else if self.minX > other.minX then
      if self.maxY = other.maxY then
        if self.minY < other.minY then .overlap else .enclosed
      else if self.maxY > other.maxY then
        if self.minY = other.maxY then .touch
        else if self.minY > other.maxY then .disjoint
        else .overlap
      else if self.maxY = other.minY then .touch
      else if self.maxY > other.minY then
        if self.minY < other.minY then .overlap else .enclosed
      else .disjoint
    else
      if self.maxY = other.maxY then
        if self.minY > other.minY then .overlap else .encloses
      else if self.maxY > other.maxY then
        if self.minY = other.maxY then .touch
        else if self.minY > other.maxY then .disjoint
        else if self.minY > other.minY then .overlap else .encloses
      else if self.maxY = other.minY then .touch
      else if self.maxY > other.minY then .overlap
      else .disjoint
  else if self.maxX > other.maxX then
    if self.minX = other.maxX then
      if self.maxY = other.maxY then .touch
      else if self.maxY > other.maxY then
        if self.minY > other.maxY then .disjoint else .touch
      else if self.maxY < other.minY then .disjoint else .touch
    else if self.minX > other.maxX then .disjoint
    else if self.minX = other.minX then
      if self.maxY = other.maxY then
        if self.minY > other.minY then .overlap else .encloses
      else if self.maxY > other.maxY then
        if self.minY = other.maxY then .touch
        else if self.minY > other.maxY then .disjoint
        else if self.minY > other.minY then .overlap else .encloses
      else if self.maxY = other.minY then .touch
      else if self.maxY > other.minY then .overlap
      else .disjoint
    else if self.minX > other.minX then
      if self.maxY = other.maxY then .overlap
      else if self.maxY > other.maxY then
        if self.minY = other.maxY then .touch
        else if self.minY > other.maxY then .disjoint
        else .overlap
      else if self.maxY = other.minY then .touch
      else if self.maxY > other.minY then .overlap
      else .disjoint
    else
      if self.maxY = other.maxY then
        if self.minY > other.minY then .overlap else .encloses
      else if self.maxY > other.maxY then
        if self.minY = other.maxY then .touch
        else if self.minY > other.maxY then .disjoint
        else if self.minY = other.minY then .encloses
        else if self.minY > other.minY then .overlap
        else .cover
      else if self.maxY = other.minY then .touch
      else if self.maxY > other.minY then .overlap
      else .disjoint
  else if self.maxX = other.minX then
    if self.maxY = other.maxY then .touch
    else if self.maxY > other.maxY then
      if self.minY > other.maxY then .disjoint else .touch
    else if self.maxY < other.minY then .disjoint else .touch
  else if self.maxX > other.minX then
    if self.minX = other.minX then
      if self.maxY = other.maxY then
        if self.minY < other.minY then .overlap else .enclosed
      else if self.maxY > other.maxY then
        if self.minY = other.maxY then .touch
        else if self.minY > other.maxY then .disjoint
        else .overlap
      else if self.maxY = other.minY then .touch
      else if self.maxY > other.minY then
        if self.minY < other.minY then .overlap else .enclosed
      else .disjoint
    else if self.minX > other.minX then
      if self.maxY = other.maxY then
        if self.minY < other.minY then .overlap else .enclosed
      else if self.maxY > other.maxY then
        if self.minY = other.maxY then .touch
        else if self.minY > other.maxY then .disjoint
        else .overlap
      else if self.maxY = other.minY then .touch
      else if self.maxY > other.minY then
        if self.minY = other.minY then .enclosed
        else if self.minY > other.minY then .within
        else .overlap
      else .disjoint
    else
      if self.maxY = other.maxY then .overlap
      else if self.maxY > other.maxY then
        if self.minY = other.maxY then .touch
        else if self.minY > other.maxY then .disjoint
        else .overlap
      else if self.maxY = other.minY then .touch
      else if self.maxY > other.minY then .overlap
      else .disjoint
  else .disjoint

/-- `rene/_utils.py` 61-64: `do_boxes_have_common_area`. -/
def doBoxesHaveCommonArea (first second : Box) : Bool :=
  !first.disjointWith second && !first.touches second

/-- `rene/_utils.py` 67-70: `do_boxes_have_no_common_area`. -/
def doBoxesHaveNoCommonArea (first second : Box) : Bool :=
  first.disjointWith second || first.touches second

/-- `rene/_utils.py` 73-80: `do_boxes_have_common_continuum`. -/
def doBoxesHaveCommonContinuum (first second : Box) : Bool :=
  !first.disjointWith second
    && (!first.touches second
      || (decide (first.minY ≠ second.maxY) && decide (second.minY ≠ first.maxY))
      || (decide (first.minX ≠ second.maxX) && decide (second.minX ≠ first.maxX)))

/-- `rene/_utils.py` 83-90: `do_boxes_have_no_common_continuum`. -/
def doBoxesHaveNoCommonContinuum (first second : Box) : Bool :=
  first.disjointWith second
    || (first.touches second
      && (decide (first.minY = second.maxY) || decide (second.minY = first.maxY))
      && (decide (first.minX = second.maxX) || decide (second.minX = first.maxX)))

/-- `rene/_geometries/base_segment.py` 46-52: `BaseSegment.bounding_box`. -/
def Segment.boundingBox (s : Segment) : Box :=
  ⟨min s.end.x s.start.x, max s.end.x s.start.x, min s.end.y s.start.y, max s.end.y s.start.y⟩

/-- `rene/_utils.py` 269-285: one round of the loop of `merge_boxes`; the same loop body is inlined in
`rene/_geometries/base_multipolygon.py` 57-66. -/
def mergeBox (acc box : Box) : Box :=
  ⟨if box.minX < acc.minX then box.minX else acc.minX,
   if box.maxX > acc.maxX then box.maxX else acc.maxX,
   if box.minY < acc.minY then box.minY else acc.minY,
   if box.maxY > acc.maxY then box.maxY else acc.maxY⟩

/-- `rene/_utils.py` 269-285: `merge_boxes` (head and tail of the non-empty iterable; an empty one
raises `StopIteration` in Python). -/
def mergeBoxes (first : Box) (rest : List Box) : Box := rest.foldl mergeBox first

/-- `rene/_exact/contour.py` 17-49: `class Contour`; `segments` is computed from the vertices. -/
structure Contour where
  vertices : List Point
  deriving DecidableEq, Repr

/-- `rene/_exact/multisegment.py`: `class Multisegment`. -/
structure Multisegment where
  segments : List Segment
  deriving DecidableEq, Repr

/-- `rene/_exact/polygon.py`: `class Polygon`. -/
structure Polygon where
  border : Contour
  holes : List Contour
  deriving DecidableEq, Repr

/-- `rene/_exact/multipolygon.py`: `class Multipolygon`. -/
structure Multipolygon where
  polygons : List Polygon
  deriving DecidableEq, Repr

/-- `rene/_utils.py` 436-446: the pairs of consecutive vertices of `to_contour_segments`
(lines 441-444). -/
def consecutive : List Point → List Segment
  | a :: b :: rest => ⟨a, b⟩ :: consecutive (b :: rest)
  | _ => []

/-- `rene/_utils.py` 436-446: `to_contour_segments`.  (Python raises `IndexError` on an empty
sequence; contours have at least three vertices.) -/
def toContourSegments : List Point → List Segment
  | [] => []
  | v :: vs => consecutive (v :: vs) ++ [⟨(v :: vs).getLast (by simp), v⟩]

/-- `rene/_exact/contour.py` 19-20, 45-48: the property `segments`, filled by `__new__`. -/
def Contour.segments (c : Contour) : List Segment := toContourSegments c.vertices

/-- `rene/_geometries/base_contour.py` 55-63: loop body of `BaseContour.bounding_box`. -/
def extendBoxByVertex (acc : Box) (v : Point) : Box :=
  let (minX, maxX) := if v.x > acc.maxX then (acc.minX, v.x)
    else if v.x < acc.minX then (v.x, acc.maxX) else (acc.minX, acc.maxX)
  let (minY, maxY) := if v.y > acc.maxY then (acc.minY, v.y)
    else if v.y < acc.minY then (v.y, acc.maxY) else (acc.minY, acc.maxY)
  ⟨minX, maxX, minY, maxY⟩

/-- `rene/_geometries/base_contour.py` 50-64: `BaseContour.bounding_box` of a contour with vertices
`first :: rest`. -/
def verticesBoundingBox (first : Point) (rest : List Point) : Box :=
  rest.foldl extendBoxByVertex ⟨first.x, first.x, first.y, first.y⟩

/-- Placeholder box for the impossible empty geometry (Python raises `StopIteration` there; the
constructors exclude it and the theorems never use this value). -/
def noBox : Box := ⟨0, 0, 0, 0⟩

/-- `rene/_geometries/base_contour.py` 50-64: `BaseContour.bounding_box`. -/
def Contour.boundingBox (c : Contour) : Box :=
  match c.vertices with
  | [] => noBox
  | v :: vs => verticesBoundingBox v vs

/-- `rene/_geometries/base_multisegment.py` 55-67: loop body of `BaseMultisegment.bounding_box`. -/
def extendBoxBySegment (acc : Box) (s : Segment) : Box :=
  let segmentMaxX := max s.start.x s.end.x
  let segmentMinX := min s.start.x s.end.x
  let segmentMaxY := max s.start.y s.end.y
  let segmentMinY := min s.start.y s.end.y
  ⟨if segmentMinX < acc.minX then segmentMinX else acc.minX,
   if segmentMaxX > acc.maxX then segmentMaxX else acc.maxX,
   if segmentMinY < acc.minY then segmentMinY else acc.minY,
   if segmentMaxY > acc.maxY then segmentMaxY else acc.maxY⟩

/-- `rene/_geometries/base_multisegment.py` 48-68: `BaseMultisegment.bounding_box` of `first :: rest`. -/
def segmentsBoundingBox (first : Segment) (rest : List Segment) : Box :=
  rest.foldl extendBoxBySegment
    ⟨min first.start.x first.end.x, max first.start.x first.end.x,
     min first.start.y first.end.y, max first.start.y first.end.y⟩

/-- `rene/_geometries/base_multisegment.py` 48-68: `BaseMultisegment.bounding_box`. -/
def Multisegment.boundingBox (m : Multisegment) : Box :=
  match m.segments with
  | [] => noBox
  | s :: ss => segmentsBoundingBox s ss

/-- `rene/_geometries/base_polygon.py` 50-51: `BasePolygon.bounding_box`. -/
def Polygon.boundingBox (p : Polygon) : Box := p.border.boundingBox

/-- `rene/_geometries/base_multipolygon.py` 48-67: `BaseMultipolygon.bounding_box`. -/
def Multipolygon.boundingBox (m : Multipolygon) : Box :=
  match m.polygons with
  | [] => noBox
  | p :: ps => mergeBoxes p.boundingBox (ps.map Polygon.boundingBox)

/-- A contour or a multisegment (`_Multisegmental` in `rene/_clipping`): only `segments` and
`bounding_box` are used there. -/
inductive Multisegmental where
  | contour (c : Contour)
  | multisegment (m : Multisegment)

/-- `.segments` of a multisegmental. -/
def Multisegmental.segments : Multisegmental → List Segment
  | .contour c => c.segments
  | .multisegment m => m.segments

/-- `.bounding_box` of a multisegmental. -/
def Multisegmental.boundingBox : Multisegmental → Box
  | .contour c => c.boundingBox
  | .multisegment m => m.boundingBox

/-- Any compound geometry (`rene/hints.py`: `Compound`). -/
inductive Geom where
  | empty
  | segment (s : Segment)
  | multisegment (m : Multisegment)
  | contour (c : Contour)
  | polygon (p : Polygon)
  | multipolygon (m : Multipolygon)
  deriving DecidableEq

/-- Python exceptions which the modelled code raises. -/
inductive Err where
  | valueError | typeError | overflowError | indexError | assertionError | keyError | zeroDivision
  deriving DecidableEq, Repr

/-- `rene/_exact/contour.py` 37-49: `Contour.__new__`. -/
def Contour.new (vertices : List Point) : Except Err Contour :=
  if vertices.length < 3 then .error .valueError else .ok ⟨vertices⟩

/-- `rene/_exact/multisegment.py` `Multisegment.__new__`. -/
def Multisegment.new (segments : List Segment) : Except Err Multisegment :=
  if segments.length < 2 then .error .valueError else .ok ⟨segments⟩

/-- `rene/_exact/multipolygon.py` `Multipolygon.__new__`. -/
def Multipolygon.new (polygons : List Polygon) : Except Err Multipolygon :=
  if polygons.length < 2 then .error .valueError else .ok ⟨polygons⟩

/-- `rene/_utils.py` 140-146: `collect_non_empty_segments` (including its assertion and the
constructor's check). -/
def collectNonEmptySegments (segments : List Segment) : Except Err Geom :=
  match segments with
  | [] => .error .assertionError
  | [s] => .ok (.segment s)
  | l => (Multisegment.new l).map .multisegment

/-- `rene/_utils.py` 114-128: `collect_maybe_empty_segments`. -/
def collectMaybeEmptySegments (segments : List Segment) : Except Err Geom :=
  match segments with
  | [] => .ok .empty
  | l => collectNonEmptySegments l

/-- `rene/_utils.py` 131-137: `collect_non_empty_polygons`. -/
def collectNonEmptyPolygons (polygons : List Polygon) : Except Err Geom :=
  match polygons with
  | [] => .error .assertionError
  | [p] => .ok (.polygon p)
  | l => (Multipolygon.new l).map .multipolygon

/-- `rene/_utils.py` 97-111: `collect_maybe_empty_polygons`. -/
def collectMaybeEmptyPolygons (polygons : List Polygon) : Except Err Geom :=
  match polygons with
  | [] => .ok .empty
  | l => collectNonEmptyPolygons l

/-- `rene/_geometries/base_contour.py` 101-109: `BaseContour.locate`. -/
def Contour.locate (c : Contour) (point : Point) : Location :=
  if c.segments.all (fun s => decide (s.locate point = .exterior)) then .exterior else .boundary

/-- `rene/_geometries/base_multisegment.py` 80-85: `BaseMultisegment.locate`. -/
def locateInSegments : List Segment → Point → Location
  | [], _ => .exterior
  | s :: rest, point =>
    if s.locate point ≠ .exterior then s.locate point else locateInSegments rest point

/-- `rene/_geometries/base_multisegment.py` 80-85: `BaseMultisegment.locate`. -/
def Multisegment.locate (m : Multisegment) (point : Point) : Location :=
  locateInSegments m.segments point

end Rene
