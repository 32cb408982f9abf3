import Verif.Props.ConstrainedDelaunay

/-! # C56: examples and findings -/

namespace Rene
open Spec Mesh

/-- The triangles listed for a polygon, `none` when the construction raises. -/
def cdtTriangles (polygon : Polygon) (fuel : Nat) : Option (List (Point × Point × Point)) :=
  match Cdt.fromPolygon polygon fuel with
  | .ok T => some T.trianglesVertices
  | .error _ => none

/-- Twice the area of a triangle. -/
def triArea2 (t : Point × Point × Point) : ℚ := area2 t.1 t.2.1 t.2.2

/-- A square with a square hole. -/
def framed (hole : List Point) : Polygon := ⟨⟨[⟨0, 0⟩, ⟨4, 0⟩, ⟨4, 4⟩, ⟨0, 4⟩]⟩, [⟨hole⟩]⟩

/-- The hypotheses of the C56 theorems are met: the triangulation of a square with a clockwise square hole completes,
its eight triangles have the area of the polygon. -/
theorem C56_example : ∃ ts, cdtTriangles (framed [⟨1, 1⟩, ⟨1, 2⟩, ⟨2, 2⟩, ⟨2, 1⟩]) 40 = some ts ∧
    ts.length = 8 ∧ (ts.map triArea2).sum = 30 := by
  have h : ((cdtTriangles (framed [⟨1, 1⟩, ⟨1, 2⟩, ⟨2, 2⟩, ⟨2, 1⟩]) 40).map fun ts =>
    (ts.length, (ts.map triArea2).sum)) = some (8, 30) := by decide +kernel
  rw [Option.map_eq_some_iff] at h
  obtain ⟨ts, h1, h2⟩ := h
  rw [Prod.mk.injEq] at h2
  exact ⟨ts, h1, h2.1, h2.2⟩

/-- C56 (finding): the same polygon with the vertices of its hole listed in the counterclockwise direction (the two
are equal for `==`) is triangulated into ten triangles, one of which is inside the hole: its vertices are those of the
hole and it contains a point which the polygon locates outside. -/
theorem C56_counterclockwise_hole :
    (cdtTriangles (framed [⟨1, 1⟩, ⟨2, 1⟩, ⟨2, 2⟩, ⟨1, 2⟩]) 40).map List.length = some 10 ∧
    (cdtTriangles (framed [⟨1, 1⟩, ⟨2, 1⟩, ⟨2, 2⟩, ⟨1, 2⟩]) 40).map (fun ts =>
      ts.contains (⟨1, 1⟩, ⟨2, 1⟩, ⟨1, 2⟩)) = some true ∧
    (framed [⟨1, 1⟩, ⟨2, 1⟩, ⟨2, 2⟩, ⟨1, 2⟩]).locate ⟨5 / 4, 5 / 4⟩ = .exterior := by
  refine ⟨?_, ?_, ?_⟩ <;> decide +kernel

/-- A polygon with a narrow cut. -/
def gashed : Polygon :=
  ⟨⟨[⟨12, 0⟩, ⟨22, 12⟩, ⟨29, 21⟩, ⟨28, 27⟩, ⟨15, 25⟩, ⟨27, 20⟩, ⟨4, 28⟩, ⟨1, 0⟩]⟩, []⟩

/-- C56 (finding): the result need not be a (constrained) Delaunay triangulation: edges swapped by
`restore_delaunay_criterion` are not reconsidered.  Here two of the triangles share an edge which is not an edge of
the polygon, form a convex quadrilateral, and the fourth vertex is inside the circle through the vertices of the
first triangle (it is closer to the centre). -/
theorem C56_not_delaunay :
    (cdtTriangles gashed 60).map (fun ts => ts.contains (⟨1, 0⟩, ⟨12, 0⟩, ⟨22, 12⟩) &&
      ts.contains (⟨1, 0⟩, ⟨22, 12⟩, ⟨4, 28⟩)) = some true ∧
    (let d := fun p : Point => (p.x - 13 / 2) ^ 2 + (p.y - 59 / 4) ^ 2
     d ⟨1, 0⟩ = d ⟨12, 0⟩ ∧ d ⟨12, 0⟩ = d ⟨22, 12⟩ ∧ d ⟨4, 28⟩ < d ⟨1, 0⟩) ∧
    0 < area2 ⟨1, 0⟩ ⟨12, 0⟩ ⟨4, 28⟩ ∧ 0 < area2 ⟨12, 0⟩ ⟨22, 12⟩ ⟨4, 28⟩ := by
  refine ⟨by decide +kernel, ?_, ?_, ?_⟩ <;> norm_num [area2]

/-- C56 (finding): the construction raises an `AssertionError` when a vertex of a hole is inside an edge of the
border. -/
theorem C56_touching_hole :
    Cdt.fromPolygon (framed [⟨2, 0⟩, ⟨1, 2⟩, ⟨3, 2⟩]) 40 = .error (.raised .assertionError) := by decide +kernel

end Rene
