import Verif.Spec.Geom
import Verif.Model.ContourOps

/-! Specification of valid shapes. -/

namespace Rene.Spec

/-- A closed polygonal line without self-contacts: at least three distinct vertices, and edges meet only at
common ends. -/
def SimpleContour (c : Contour) : Prop := 3 ≤ c.vertices.length ∧ c.vertices.Nodup ∧ FullyNoded c.segments

/-- Twice the signed area inside of a closed polygonal line (the shoelace formula). -/
def doubledArea (vertices : List Point) : ℚ :=
  (List.zipWith (fun a b => a.x * b.y - b.x * a.y) vertices (vertices.rotate 1)).sum

/-- The contours of a polygon. -/
def polygonContours (p : Polygon) : List Contour := p.border :: p.holes

/-- A polygon with simple contours, pairwise without overlapping edges, where each hole is inside of the border
and no point is inside of one hole while belonging to another one. -/
def ValidPolygon (p : Polygon) : Prop :=
  (∀ c ∈ polygonContours p, SimpleContour c) ∧
  NoOverlap ((polygonContours p).flatMap Contour.segments) ∧
  (∀ h ∈ p.holes, ∀ q, (locatePointInRegion h q = .interior → locatePointInRegion p.border q = .interior) ∧
    (locatePointInRegion h q = .boundary → locatePointInRegion p.border q ≠ .exterior)) ∧
  p.holes.Pairwise (fun h k => ∀ q, ¬ (locatePointInRegion h q = .interior ∧ locatePointInRegion k q ≠ .exterior) ∧
    ¬ (locatePointInRegion k q = .interior ∧ locatePointInRegion h q ≠ .exterior))

/-- Polygons without overlapping edges, where no point is inside of one polygon while belonging to another one. -/
def ValidPolygons (l : List Polygon) : Prop :=
  (∀ p ∈ l, ValidPolygon p) ∧
  NoOverlap (l.flatMap fun p => (polygonContours p).flatMap Contour.segments) ∧
  l.Pairwise (fun p r => ∀ q, ¬ (p.locate q = .interior ∧ r.locate q ≠ .exterior) ∧
    ¬ (r.locate q = .interior ∧ p.locate q ≠ .exterior))

/-- The points of a closed region. -/
def polygonPts (p : Polygon) : Set Point := {q | p.locate q ≠ .exterior}

/-- The points of the union of the closed regions of polygons. -/
def regionPts (l : List Polygon) : Set Point := {q | ∃ p ∈ l, q ∈ polygonPts p}

end Rene.Spec
