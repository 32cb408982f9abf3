import Verif.Spec.Relation
import Verif.Spec.Geom

/-! What each `Relation` means for a segment `ab` and a closed chain of edges, a list of segments or a region, as
point sets. -/

namespace Rene.Spec
open Rene

/-- `e'` follows `e` in the list of edges, the first one following the last one. -/
def NextEdge (edges : List Segment) (e e' : Segment) : Prop :=
  ∃ i, edges[i]? = some e ∧ edges[(i + 1) % edges.length]? = some e'

/-- The chain of the two edges goes from one side of the line `ab` to the other one at their common vertex, which
is inside of the segment `ab`. -/
def PassesVertex (a b : Point) (e e' : Segment) : Prop :=
  e'.start ∈ openSeg a b ∧ area2 a b e.start * area2 a b e'.end < 0

/-- The closed chain goes from one side of the segment `ab` to the other one, inside of an edge or at a vertex. -/
def ContourCrosses (a b : Point) (edges : List Segment) : Prop :=
  (∃ e ∈ edges, SegRel .cross a b e.start e.end) ∨ ∃ e e', NextEdge edges e e' ∧ PassesVertex a b e e'

/-- The segment `ab` has more than one common point with an edge. -/
def HasOverlap (a b : Point) (edges : List Segment) : Prop := ∃ e ∈ edges, ¬ AtMostOne (seg a b ∩ segPts e)

/-- Meaning of `Relation` for the segment `ab` and a closed chain. -/
def ContourRel (r : Relation) (a b : Point) (edges : List Segment) : Prop :=
  match r with
  | .component => ∃ e ∈ edges, seg a b ⊆ segPts e
  | .overlap => HasOverlap a b edges ∧ ¬ ∃ e ∈ edges, seg a b ⊆ segPts e
  | .cross => ¬ HasOverlap a b edges ∧ ContourCrosses a b edges
  | .touch => ¬ HasOverlap a b edges ∧ ¬ ContourCrosses a b edges ∧ (seg a b ∩ segsPts edges).Nonempty
  | .disjoint => seg a b ∩ segsPts edges = ∅
  | _ => False

/-- No three neighbouring vertices of the closed chain are on one line
(`Contour.is_valid` demands it). -/
def NoStraightAngle (edges : List Segment) : Prop :=
  ∀ e e', NextEdge edges e e' → area2 e.start e.end e'.end ≠ 0

/-- Two components end at the same point inside of the segment `ab`, and come to it from different sides of the
line `ab`. -/
def PassesEnds (a b : Point) (segments : List Segment) : Prop :=
  ∃ p u w, p ∈ openSeg a b ∧ area2 a b u * area2 a b w < 0 ∧
    ((⟨p, u⟩ : Segment) ∈ segments ∨ (⟨u, p⟩ : Segment) ∈ segments) ∧
    ((⟨p, w⟩ : Segment) ∈ segments ∨ (⟨w, p⟩ : Segment) ∈ segments)

/-- The segment `ab` is crossed by a component, or at a common end of two components. -/
def MultisegmentCrosses (a b : Point) (segments : List Segment) : Prop :=
  (∃ c ∈ segments, SegRel .cross a b c.start c.end) ∨ PassesEnds a b segments

/-- Meaning of `Relation` for the segment `ab` and a multisegment. -/
def MultisegmentRel (r : Relation) (a b : Point) (segments : List Segment) : Prop :=
  match r with
  | .equal => seg a b = segsPts segments
  | .component => seg a b ⊂ segsPts segments
  | .composite => segsPts segments ⊂ seg a b
  | .overlap => HasOverlap a b segments ∧ ¬ seg a b ⊆ segsPts segments ∧ ¬ segsPts segments ⊆ seg a b
  | .cross => ¬ HasOverlap a b segments ∧ MultisegmentCrosses a b segments
  | .touch => ¬ HasOverlap a b segments ∧ ¬ MultisegmentCrosses a b segments ∧
      (seg a b ∩ segsPts segments).Nonempty
  | .disjoint => seg a b ∩ segsPts segments = ∅
  | _ => False

end Rene.Spec
