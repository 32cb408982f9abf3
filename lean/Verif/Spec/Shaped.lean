import Verif.Spec.Shapes

/-! Specification of the results of boolean operations on regions. -/

namespace Rene.Spec

/-- The polygons of a result. -/
def resultPolygons : Geom → Option (List Polygon)
  | .empty => some []
  | .polygon p => some [p]
  | .multipolygon m => some m.polygons
  | _ => none

/-- The contours of several polygons. -/
def contoursOf (l : List Polygon) : List Contour := l.flatMap polygonContours

/-- The points on the contours of polygons. -/
def outlinePts (l : List Polygon) : Set Point := {q | ∃ c ∈ contoursOf l, q ∈ segsPts c.segments}

/-- How many of the contours have the point strictly inside. -/
def coverage (l : List Polygon) (q : Point) : ℕ :=
  (contoursOf l).countP fun c => decide (locatePointInRegion c q = .interior)

/-- The call returns polygons (or the empty geometry) whose contours are simple and pairwise without overlapping
edges; each polygon is one of an operand or has a counterclockwise border and clockwise holes; its contours go
along those of the operands. -/
def SoundContours (l1 l2 : List Polygon) (r : Except Err Geom) : Prop :=
  ∃ g ps, r = .ok g ∧ resultPolygons g = some ps ∧
    (∀ c ∈ contoursOf ps, SimpleContour c) ∧
    NoOverlap ((contoursOf ps).flatMap Contour.segments) ∧
    (∀ p ∈ ps, p ∈ l1 ∨ p ∈ l2 ∨
      (p.border.orientation = .counterclockwise ∧ ∀ h ∈ p.holes, h.orientation = .clockwise)) ∧
    outlinePts ps ⊆ outlinePts l1 ∪ outlinePts l2

/-- A point off the contours of the operands is inside of an odd number of the result's contours if and only if
it satisfies the boolean condition. -/
def EvenOdd (cond : Prop → Prop → Prop) (l1 l2 : List Polygon) (r : Except Err Geom) : Prop :=
  ∃ g ps, r = .ok g ∧ resultPolygons g = some ps ∧
    ∀ q, q ∉ outlinePts l1 → q ∉ outlinePts l2 → (Odd (coverage ps q) ↔ cond (q ∈ regionPts l1) (q ∈ regionPts l2))

/-- The edges of the contours of polygons. -/
def outlineEdges (l : List Polygon) : List Segment := (contoursOf l).flatMap Contour.segments

/-- No end of an edge of the second list is on an edge of the first one other than at an end of it. -/
def EndsOff (l m : List Segment) : Prop :=
  ∀ s ∈ l, ∀ t ∈ m, t.start ∉ openSeg s.start s.end ∧ t.end ∉ openSeg s.start s.end

/-- Edges of one operand meet only at common vertices, and no vertex of one operand is on an edge of the other
one except at a vertex of it.  Common vertices, common edges and crossing edges of the operands are allowed. -/
def VerticesOffEdges (l1 l2 : List Polygon) : Prop :=
  FullyNoded (outlineEdges l1) ∧ FullyNoded (outlineEdges l2) ∧
  EndsOff (outlineEdges l1) (outlineEdges l2) ∧ EndsOff (outlineEdges l2) (outlineEdges l1)

/-- How many of the contours go through the point. -/
def contoursThrough (l : List Polygon) (q : Point) : ℕ :=
  (contoursOf l).countP fun c => decide (locatePointInRegion c q = .boundary)

/-- Edges of one operand meet only at common vertices, and inside of an edge of one operand there are no points
common to two contours of the other one.  Common vertices, common edges, crossing edges and vertices of one operand
inside of the edges of the other one are allowed. -/
def CleanOperands (l1 l2 : List Polygon) : Prop :=
  FullyNoded (outlineEdges l1) ∧ FullyNoded (outlineEdges l2) ∧
  (∀ s ∈ outlineEdges l1, ∀ q ∈ openSeg s.start s.end, contoursThrough l2 q ≤ 1) ∧
  (∀ s ∈ outlineEdges l2, ∀ q ∈ openSeg s.start s.end, contoursThrough l1 q ≤ 1)

/-- Where the point is located by the `locate` method of a polygonal geometry. -/
def locatedBy (g : Geom) (q : Point) : Option Location :=
  match g with
  | .empty => some .exterior
  | .polygon p => some (p.locate q)
  | .multipolygon m => some (m.locate q)
  | _ => none

/-- The call returns a polygonal geometry, and among the points off the contours of the operands it locates inside
exactly those which satisfy the boolean condition, the other ones being outside. -/
def Exact (cond : Prop → Prop → Prop) (l1 l2 : List Polygon) (r : Except Err Geom) : Prop :=
  ∃ g, r = .ok g ∧ ∀ q, q ∉ outlinePts l1 → q ∉ outlinePts l2 →
    (cond (q ∈ regionPts l1) (q ∈ regionPts l2) → locatedBy g q = some .interior) ∧
    (¬ cond (q ∈ regionPts l1) (q ∈ regionPts l2) → locatedBy g q = some .exterior)

/-- The call returns polygons (or the empty geometry) which are valid as operands again. -/
def ValidResult (r : Except Err Geom) : Prop :=
  ∃ g ps, r = .ok g ∧ resultPolygons g = some ps ∧ ValidPolygons ps

/-- All the points off the contours of the operands which are close enough to the point satisfy the condition. -/
def Around (l1 l2 : List Polygon) (q : Point) (cond : Point → Prop) : Prop :=
  ∃ r > 0, ∀ z : Point, |z.x - q.x| < r → |z.y - q.y| < r → z ∉ outlinePts l1 → z ∉ outlinePts l2 → cond z

/-- The call returns a polygonal geometry which locates every point of the plane: inside, if all the points nearby
satisfy the boolean condition; outside, if none of them does; on the boundary, if there are both. -/
def Regular (cond : Prop → Prop → Prop) (l1 l2 : List Polygon) (r : Except Err Geom) : Prop :=
  ∃ g, r = .ok g ∧ ∀ q,
    (locatedBy g q = some .interior ↔ Around l1 l2 q fun z => cond (z ∈ regionPts l1) (z ∈ regionPts l2)) ∧
    (locatedBy g q = some .exterior ↔ Around l1 l2 q fun z => ¬ cond (z ∈ regionPts l1) (z ∈ regionPts l2)) ∧
    (locatedBy g q = some .boundary ↔ ¬ (Around l1 l2 q fun z => cond (z ∈ regionPts l1) (z ∈ regionPts l2)) ∧
      ¬ (Around l1 l2 q fun z => ¬ cond (z ∈ regionPts l1) (z ∈ regionPts l2)))

/-- Both calls return polygonal geometries which locate every point of the plane in the same way. -/
def SameLocations (r r' : Except Err Geom) : Prop :=
  ∃ g g', r = .ok g ∧ r' = .ok g' ∧ ∀ q, ∃ x, locatedBy g q = some x ∧ locatedBy g' q = some x

end Rene.Spec
