import Verif.Spec.Shapes

/-! What each `Relation` means for two polygons or multipolygons, in terms of where points are located. -/

namespace Rene.Spec
open Rene

/-- The points strictly inside. -/
def inner (locate : Point → Location) : Set Point := {q | locate q = .interior}
/-- The points on the boundary. -/
def outline (locate : Point → Location) : Set Point := {q | locate q = .boundary}
/-- The points of the closed region. -/
def region (locate : Point → Location) : Set Point := {q | locate q ≠ .exterior}

/-- Meaning of `Relation` for two regions:
DISJOINT without common points;
TOUCH when only boundaries have common points, and none is a part of the other one;
OVERLAP when there are common inner points, but none is a part of the other one;
EQUAL for the same points;
and when the first is a proper part of the second:
WITHIN if it is strictly inside, COMPONENT if its boundary is a part of the boundary,
ENCLOSED if its boundary meets both the boundary and the inside
(COVER, COMPOSITE and ENCLOSES with the arguments exchanged).  CROSS is not possible. -/
def ShapedRel (first second : Point → Location) : Relation → Prop
  | .disjoint => region first ∩ region second = ∅
  | .touch => (outline first ∩ outline second).Nonempty ∧ inner first ∩ inner second = ∅ ∧
      ¬ region first ⊆ region second ∧ ¬ region second ⊆ region first
  | .cross => False
  | .overlap => (inner first ∩ inner second).Nonempty ∧
      ¬ region first ⊆ region second ∧ ¬ region second ⊆ region first
  | .equal => region first = region second
  | .within => region first ⊂ region second ∧ region first ⊆ inner second
  | .component => region first ⊂ region second ∧ outline first ⊆ outline second
  | .enclosed => region first ⊂ region second ∧ (outline first ∩ outline second).Nonempty ∧
      (outline first ∩ inner second).Nonempty
  | .cover => region second ⊂ region first ∧ region second ⊆ inner first
  | .composite => region second ⊂ region first ∧ outline second ⊆ outline first
  | .encloses => region second ⊂ region first ∧ (outline second ∩ outline first).Nonempty ∧
      (outline second ∩ inner first).Nonempty

/-- The border of the polygon is counterclockwise, and the holes are clockwise. -/
def Oriented (p : Polygon) : Prop :=
  p.border.orientation = .counterclockwise ∧ ∀ h ∈ p.holes, h.orientation = .clockwise

/-- The region bounded by `c` is inside of the one bounded by `d`. -/
def Inside (c d : Contour) : Prop := ∀ q,
  (locatePointInRegion c q = .interior → locatePointInRegion d q = .interior) ∧
  (locatePointInRegion c q = .boundary → locatePointInRegion d q ≠ .exterior)

/-- The regions inside of the borders of any two polygons do not overlap, or one of them is in a hole of the other
polygon. -/
def Nested (l : List Polygon) : Prop := l.Pairwise fun p r =>
  (∀ q, ¬ (locatePointInRegion p.border q = .interior ∧ locatePointInRegion r.border q ≠ .exterior) ∧
    ¬ (locatePointInRegion r.border q = .interior ∧ locatePointInRegion p.border q ≠ .exterior)) ∨
  (∃ h ∈ p.holes, Inside r.border h) ∨ ∃ h ∈ r.holes, Inside p.border h

end Rene.Spec
