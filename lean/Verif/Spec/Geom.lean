import Verif.Spec.Basic
import Verif.Model.Geometries

/-! Point sets of (linear) geometries. -/

namespace Rene.Spec
open Rene

/-- The components of a linear geometry: consecutive vertex pairs for a contour. -/
def geomSegs : Geom → List Segment
  | .empty => []
  | .segment s => [s]
  | .multisegment m => m.segments
  | .contour c => c.segments
  | _ => []

/-- Points of a linear geometry. -/
def linPts (g : Geom) : Set Point := segsPts (geomSegs g)

/-- Linear geometries. -/
def IsLinear : Geom → Prop
  | .polygon _ => False
  | .multipolygon _ => False
  | _ => True

/-- Two segments share at most one point. -/
def Apart (s t : Segment) : Prop := AtMostOne (segPts s ∩ segPts t)

/-- Components of a list are non-degenerate and pairwise share at most one point. -/
def NoOverlap (l : List Segment) : Prop := (∀ s ∈ l, s.start ≠ s.end) ∧ l.Pairwise Apart

/-- Two segments share at most one point, and not in the middle of both. -/
def Joined (s t : Segment) : Prop := Apart s t ∧ openSeg s.start s.end ∩ openSeg t.start t.end = ∅

/-- Components of a list are non-degenerate, and pairwise neither overlap nor cross. -/
def WellJoined (l : List Segment) : Prop := (∀ s ∈ l, s.start ≠ s.end) ∧ l.Pairwise Joined

/-- Two segments share at most one point, and it is an endpoint of both. -/
def Noded (s t : Segment) : Prop := Apart s t ∧ ∀ p, p ∈ segPts s → p ∈ segPts t →
  (p = s.start ∨ p = s.end) ∧ (p = t.start ∨ p = t.end)

/-- Components of a list are non-degenerate and pairwise meet only at common endpoints. -/
def FullyNoded (l : List Segment) : Prop := (∀ s ∈ l, s.start ≠ s.end) ∧ l.Pairwise Noded

/-- One-dimensional regularisation of a set: the points from which some straight path starts into the
set.  For finite unions of segments it drops isolated points and adds missing end points. -/
def reg (S : Set Point) : Set Point := {p | ∃ q, q ≠ p ∧ openSeg p q ⊆ S}

end Rene.Spec

namespace Rene.Spec
open Rene

/-- What the constructors guarantee: at least three vertices or at least two segments
(`Contour.new`, `Multisegment.new`). -/
def Constructed : Multisegmental → Prop
  | .contour c => 3 ≤ c.vertices.length
  | .multisegment m => 2 ≤ m.segments.length

/-- The sets have the same points with finitely many exceptions. -/
def SameUpToFinite (S T : Set Point) : Prop := ∃ F : List Point, ∀ p ∉ F, p ∈ S ↔ p ∈ T

/-- A linear geometry as a user constructs it: a segment has two different ends; a contour has at least three
vertices and a multisegment at least two segments, which have different ends and pairwise share at most one
point. -/
def ValidLinear : Geom → Prop
  | .empty => True
  | .segment s => s.start ≠ s.end
  | .contour c => 3 ≤ c.vertices.length ∧ NoOverlap c.segments
  | .multisegment m => 2 ≤ m.segments.length ∧ NoOverlap m.segments
  | .polygon _ => False
  | .multipolygon _ => False

end Rene.Spec
