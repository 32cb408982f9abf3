import Verif.Model.Mesh
import Verif.Model.Relating
import Mathlib.Data.List.Sort

/-! Model of `rene/_triangulation/constrained_delaunay.py` and `vertices.py`, and of
`ConstrainedDelaunayTriangulation` in `rene/_exact/triangulation.py`.

Loops have a fuel; running out of it is the exception `Stop.outOfFuel`, which no Python program raises. -/

namespace Rene

/-- How a computation may stop without a value: the fuel of the model is over, or the code raises. -/
inductive Stop where
  | outOfFuel
  | raised (e : Err)
  deriving DecidableEq, Repr

/-- A Python `assert`. -/
def assert (condition : Bool) : Except Stop Unit :=
  if condition then .ok () else .error (.raised .assertionError)

/-- `rene/_triangulation/vertices.py` 64-77: `class PolygonVertexPosition`. -/
structure VertexPosition where
  contourIndex : Nat
  index : Nat
  deriving DecidableEq, Repr

/-- `rene/_triangulation/constrained_delaunay.py` 36-39: `contours_vertices`. -/
def Polygon.contoursVertices (polygon : Polygon) : List (List Point) :=
  polygon.border.vertices :: polygon.holes.map Contour.vertices

/-- `rene/_triangulation/constrained_delaunay.py` 40-57: `vertices` before sorting (`vertices.py` 10-26,
`ContourVertex`): the last vertices of the contours are at the end. -/
def toContourVertices (contoursVertices : List (List Point)) : List (VertexPosition × Point) :=
  (contoursVertices.zipIdx.flatMap fun c => c.1.dropLast.zipIdx.map fun v => (⟨c.2, v.2⟩, v.1)) ++
    contoursVertices.zipIdx.map fun c => (⟨c.2, c.1.length - 1⟩, c.1.getLastD ⟨0, 0⟩)

/-- `itertools.groupby` of the sorted vertices by the point (`rene/_triangulation/constrained_delaunay.py` 61-70). -/
def groupVertices : List (VertexPosition × Point) → List (Point × List VertexPosition)
  | [] => []
  | v :: rest =>
    match groupVertices rest with
    | [] => [(v.2, [v.1])]
    | (p, g) :: groups => if v.2 = p then (p, v.1 :: g) :: groups else (v.2, [v.1]) :: (p, g) :: groups

/-- `rene/_triangulation/constrained_delaunay.py` 58-70: `points` with `polygon_vertices_positions`; `list.sort` is
stable, as `insertionSort` is. -/
def toPolygonVertices (contoursVertices : List (List Point)) : List (Point × List VertexPosition) :=
  groupVertices ((toContourVertices contoursVertices).insertionSort fun a b => (!b.2.ltB a.2) = true)

/-- `rene/_triangulation/constrained_delaunay.py` 344-351: `are_polygon_edge_indices`. -/
def arePolygonEdgeIndices (first second contourSize : Nat) : Bool :=
  decide (first = second + 1) || decide (second = first + 1) ||
    (decide (first = 0) && decide (second + 1 = contourSize)) ||
    (decide (first + 1 = contourSize) && decide (second = 0))

/-- `rene/_triangulation/constrained_delaunay.py` 765-772: `to_constraint_index`. -/
def toConstraintIndex (firstVertexIndex secondVertexIndex : Nat) : Nat :=
  if firstVertexIndex = secondVertexIndex + 1 ∨ secondVertexIndex = firstVertexIndex + 1 then
    max firstVertexIndex secondVertexIndex else 0

/-- `rene/_triangulation/constrained_delaunay.py` 323-341: `angle_contains_point`. -/
def angleContainsPoint (vertex firstRayPoint secondRayPoint : Point) (angleOrientation : Orientation) (point : Point) :
    Except Stop Bool := do
  assert (decide (angleOrientation ≠ .collinear))
  let firstHalfOrientation := orient vertex firstRayPoint point
  let secondHalfOrientation := orient secondRayPoint vertex point
  pure ((decide (firstHalfOrientation = .collinear) || decide (firstHalfOrientation = angleOrientation)) &&
    (decide (secondHalfOrientation = .collinear) || decide (secondHalfOrientation = angleOrientation)))

/-- `rene/_triangulation/constrained_delaunay.py` 448-474: `_intersect_polygon_vertices_positions` with
`reverse=False`. -/
def intersectPositionsLoop (first second : List VertexPosition) (withBorder : Bool) :
    List (VertexPosition × VertexPosition) :=
  first.filterMap fun p =>
    if withBorder || decide (p.contourIndex ≠ 0) then
      (second.find? fun c => decide (c.contourIndex = p.contourIndex)).map fun c => (p, c)
    else none

/-- `rene/_triangulation/constrained_delaunay.py` 431-445: `intersect_polygon_vertices_positions`. -/
def intersectPositions (first second : List VertexPosition) (withBorder : Bool) :
    List (VertexPosition × VertexPosition) :=
  if first.length < second.length then intersectPositionsLoop first second withBorder
  else (intersectPositionsLoop second first withBorder).map Prod.swap

/-- `rene/_triangulation/constrained_delaunay.py` 498-546: `is_segment_inside_hole`; `hole_vertices[-1]` is the last
vertex. -/
def isSegmentInsideHole (start «end» : Point) (startPosition endPosition : VertexPosition)
    (contoursVertices : List (List Point)) : Except Stop Bool := do
  assert (decide (startPosition.contourIndex = endPosition.contourIndex))
  let holeVertices := contoursVertices.getD startPosition.contourIndex []
  let holeSize := holeVertices.length
  let vertex := fun i => holeVertices.getD i ⟨0, 0⟩
  let prior := fun i => vertex (if i = 0 then holeSize - 1 else i - 1)
  let next := fun i => vertex ((i + 1) % holeSize)
  if arePolygonEdgeIndices startPosition.index endPosition.index holeSize then pure false
  else
    let startOrientation := orient start (prior startPosition.index) (next startPosition.index)
    let endOrientation := orient «end» (prior endPosition.index) (next endPosition.index)
    let inEnd ← angleContainsPoint «end» (prior endPosition.index) (next endPosition.index) endOrientation start
    if decide (endOrientation = .counterclockwise) = inEnd then
      let inStart ← angleContainsPoint start (prior startPosition.index) (next startPosition.index) startOrientation «end»
      pure (decide (startOrientation = .counterclockwise) == inStart)
    else pure false

/-- `rene/_triangulation/constrained_delaunay.py` 354-378: `are_triangular_hole_vertices`. -/
def areTriangularHoleVertices (first second third : List VertexPosition) (triangularHolesIndices : List Nat) : Bool :=
  first.any fun p => decide (p.contourIndex ≠ 0) &&
    (second.any fun q => decide (q.contourIndex = p.contourIndex)) &&
    (third.any fun q => decide (q.contourIndex = p.contourIndex)) &&
    triangularHolesIndices.contains p.contourIndex

namespace Mesh

/-- `rene/_triangulation/constrained_delaunay.py` 617-643: `is_convex_quadrilateral_diagonal`. -/
def isConvexQuadrilateralDiagonal (m : Mesh) (edge : Nat) : Bool :=
  decide (m.orientPointToEdge (m.toLeftFromEnd edge) (m.toStart edge) = .counterclockwise) &&
  decide (m.orientPointToEdge (m.toRightFromStart edge) (m.toEnd edge) = .counterclockwise) &&
  decide (m.orientPointToEdge (toOppositeEdge (m.toRightFromEnd edge)) (m.toEnd (m.toLeftFromStart edge)) =
    .counterclockwise) &&
  decide (m.orientPointToEdge (toOppositeEdge (m.toLeftFromStart edge)) (m.toEnd (m.toRightFromStart edge)) =
    .counterclockwise)

/-- `rene/_triangulation/constrained_delaunay.py` 591-614: `edge_should_be_swapped`. -/
def edgeShouldBeSwapped (m : Mesh) (edge : Nat) : Bool :=
  m.isConvexQuadrilateralDiagonal edge &&
    (decide (locatePointInCircle (m.toEnd (m.toRightFromStart edge)) (m.toStart edge) (m.toEnd edge)
        (m.toEnd (m.toLeftFromStart edge)) = .interior) ||
     decide (locatePointInCircle (m.toEnd (m.toLeftFromStart edge)) (m.toEnd edge) (m.toStart edge)
        (m.toEnd (m.toRightFromStart edge)) = .interior))

/-- `rene/_triangulation/constrained_delaunay.py` 704-717: the loop of `restore_delaunay_criterion`; the fuel is a
number of rounds. -/
def restoreLoop : Nat → Mesh → List Nat → Mesh
  | 0, m, _ => m
  | rounds + 1, m, candidates =>
    if candidates.filter m.edgeShouldBeSwapped = [] then m
    else restoreLoop rounds ((candidates.filter m.edgeShouldBeSwapped).foldl swapDiagonal m)
      (candidates.filter fun e => !m.edgeShouldBeSwapped e)

/-- `rene/_triangulation/constrained_delaunay.py` 698-717: `restore_delaunay_criterion`; each round but the last one
shortens the list of candidates, so that this number of rounds is enough. -/
def restoreDelaunay (m : Mesh) (candidates : List Nat) : Mesh := restoreLoop (candidates.length + 1) m candidates

/-- `rene/_triangulation/constrained_delaunay.py` 668-695: the loop of `resolve_crossings`. -/
def resolveCrossings (constraintStart constraintEnd : Point) :
    Nat → Mesh → List Nat → List Nat → Except Stop (Mesh × List Nat)
  | _, m, [], result => pure (m, result)
  | 0, _, _ :: _, _ => throw .outOfFuel
  | fuel + 1, m, crossing :: queue, result =>
    if m.isConvexQuadrilateralDiagonal crossing then
      let m := m.swapDiagonal crossing
      let relation := relateToSegmentEndpoints (m.toStart crossing) (m.toEnd crossing) constraintStart constraintEnd
      if relation = .cross then resolveCrossings constraintStart constraintEnd fuel m (queue ++ [crossing]) result
      else if relation ≠ .equal then
        resolveCrossings constraintStart constraintEnd fuel m queue (result ++ [crossing])
      else resolveCrossings constraintStart constraintEnd fuel m queue result
    else resolveCrossings constraintStart constraintEnd fuel m (queue ++ [crossing]) result

/-- `rene/_triangulation/constrained_delaunay.py` 720-731: `set_constraint`. -/
def setConstraint (m : Mesh) (constraintStart constraintEnd : Point) (crossings : List Nat) (fuel : Nat) :
    Except Stop Mesh := do
  let r ← resolveCrossings constraintStart constraintEnd fuel m crossings []
  pure (r.1.restoreDelaunay r.2)

/-- An edge crosses the constraint. -/
def crosses (m : Mesh) (constraintStart constraintEnd : Point) (edge : Nat) : Bool :=
  decide (relateToSegmentEndpoints (m.toStart edge) (m.toEnd edge) constraintStart constraintEnd = .cross)

/-- `rene/_triangulation/constrained_delaunay.py` 389-412: the loop of `detect_crossings`. -/
def crossingsLoop (m : Mesh) (constraintStart constraintEnd : Point) :
    Nat → Nat → List Nat → Except Stop (List Nat)
  | 0, _, _ => throw .outOfFuel
  | fuel + 1, candidate, result =>
    if m.toStart candidate = constraintEnd then pure result
    else do
      assert (m.crosses constraintStart constraintEnd candidate)
      let next := m.toRightFromStart candidate
      crossingsLoop m constraintStart constraintEnd fuel
        (if m.orientPointToEdge next constraintEnd ≠ .clockwise ∨
            orient constraintStart constraintEnd (m.toEnd next) = .clockwise then
          toOppositeEdge (m.toRightFromEnd candidate) else next)
        (result ++ [candidate])

/-- `rene/_triangulation/constrained_delaunay.py` 381-428: `detect_crossings`. -/
def detectCrossings (m : Mesh) (baseEdge : Nat) (constraintStart constraintEnd : Point) (fuel : Nat) :
    Except Stop (List Nat) := do
  let result ← m.crossingsLoop constraintStart constraintEnd fuel (m.toLeftFromEnd baseEdge) []
  assert (result.all fun e => !result.contains (toOppositeEdge e))
  assert ((m.toUniqueEdges.filter (m.crosses constraintStart constraintEnd)).all fun e =>
    result.contains e || result.contains (toOppositeEdge e))
  pure result

/-- `rene/_triangulation/constrained_delaunay.py` 746-753: the first loop of
`to_angle_containing_constraint_base`. -/
def angleBaseLeft (m : Mesh) (constraintEnd : Point) : Nat → Nat → Except Stop Nat
  | 0, _ => throw .outOfFuel
  | fuel + 1, edge =>
    let candidate := m.toLeftFromStart edge
    if m.orientPointToEdge candidate constraintEnd = .clockwise then pure edge
    else angleBaseLeft m constraintEnd fuel candidate

/-- `rene/_triangulation/constrained_delaunay.py` 755-761: the second loop of
`to_angle_containing_constraint_base`. -/
def angleBaseRight (m : Mesh) (constraintEnd : Point) : Nat → Nat → Except Stop Nat
  | 0, _ => throw .outOfFuel
  | fuel + 1, edge =>
    let edge := m.toRightFromStart edge
    if m.orientPointToEdge edge constraintEnd ≠ .clockwise then pure edge
    else angleBaseRight m constraintEnd fuel edge

/-- `rene/_triangulation/constrained_delaunay.py` 734-762: `to_angle_containing_constraint_base`. -/
def angleBase (m : Mesh) (edge : Nat) (constraintEnd : Point) (fuel : Nat) : Except Stop Nat :=
  if m.toEnd edge ≠ constraintEnd then
    if m.orientPointToEdge edge constraintEnd = .counterclockwise then m.angleBaseLeft constraintEnd fuel edge
    else m.angleBaseRight constraintEnd fuel edge
  else pure edge

end Mesh

/-- `rene/_triangulation/constrained_delaunay.py` 280-313: the fields of `class ConstrainedDelaunayTriangulation`, with
`contours_vertices` of `from_polygon`; the sides are `none` for `UNDEFINED_EDGE`. -/
structure Cdt where
  leftSide : Option Nat
  rightSide : Option Nat
  mesh : Mesh
  positions : List (List VertexPosition)
  triangularHoles : List Nat
  contours : List (List Point)
  deriving DecidableEq, Repr

namespace Cdt

/-- `polygon_vertices_positions[...]`. -/
def positionsAt (T : Cdt) (i : Nat) : List VertexPosition := T.positions.getD i []

/-- `contours_sizes[...]` (`rene/_triangulation/constrained_delaunay.py` 73-75). -/
def contourSize (T : Cdt) (i : Nat) : Nat := (T.contours.getD i []).length

/-- `rene/_triangulation/constrained_delaunay.py` 646-665: `is_polygon_edge`. -/
def isPolygonEdge (T : Cdt) (edge : Nat) : Bool :=
  (intersectPositions (T.positionsAt (T.mesh.toStartIndex edge)) (T.positionsAt (T.mesh.toEndIndex edge)) true).any
    fun p => arePolygonEdgeIndices p.1.index p.2.index (T.contourSize p.1.contourIndex)

/-- Setting a flag of `contours_constraints_flags`. -/
def setFlag (flags : List (List Bool)) (contour constraint : Nat) : List (List Bool) :=
  flags.set contour ((flags.getD contour []).set constraint true)

/-- `rene/_triangulation/constrained_delaunay.py` 565-588: `to_contours_constraints_flags` (the `assert` holds because
`intersect_polygon_vertices_positions` pairs positions in the same contour). -/
def constraintsFlags (T : Cdt) : List (List Bool) :=
  T.mesh.toUniqueEdges.foldl (fun flags edge =>
    (intersectPositions (T.positionsAt (T.mesh.toStartIndex edge)) (T.positionsAt (T.mesh.toEndIndex edge)) true).foldl
      (fun flags p =>
        if arePolygonEdgeIndices p.1.index p.2.index (T.contourSize p.1.contourIndex) then
          setFlag flags p.1.contourIndex (toConstraintIndex p.1.index p.2.index)
        else flags) flags)
    (T.contours.map fun c => List.replicate c.length false)

/-- `rene/_triangulation/constrained_delaunay.py` 153-188: the body of the inner loop of `constrain`. -/
def constrainPosition (T : Cdt) (flags : List (List Bool)) (edge : Nat) (vertexPoint : Point)
    (position : VertexPosition) (fuel : Nat) : Except Stop (Cdt × List (List Bool)) :=
  let nextVertexIndex := (position.index + 1) % T.contourSize position.contourIndex
  let constraintIndex := toConstraintIndex position.index nextVertexIndex
  if !(flags.getD position.contourIndex []).getD constraintIndex false then do
    let nextVertexPoint := (T.contours.getD position.contourIndex []).getD nextVertexIndex ⟨0, 0⟩
    let base ← T.mesh.angleBase edge nextVertexPoint fuel
    let crossings ← T.mesh.detectCrossings base vertexPoint nextVertexPoint fuel
    let mesh ← if crossings = [] then pure T.mesh else T.mesh.setConstraint vertexPoint nextVertexPoint crossings fuel
    pure ({ T with mesh := mesh }, setFlag flags position.contourIndex constraintIndex)
  else pure (T, flags)

/-- `rene/_triangulation/constrained_delaunay.py` 153-188: the inner loop of `constrain`. -/
def constrainPositions (edge : Nat) (vertexPoint : Point) (fuel : Nat) :
    Cdt → List (List Bool) → List VertexPosition → Except Stop (Cdt × List (List Bool))
  | T, flags, [] => pure (T, flags)
  | T, flags, position :: rest => do
    let r ← T.constrainPosition flags edge vertexPoint position fuel
    constrainPositions edge vertexPoint fuel r.1 r.2 rest

/-- `rene/_triangulation/constrained_delaunay.py` 146-188: the loop of `constrain`. -/
def constrainEdges (fuel : Nat) : Cdt → List (List Bool) → List Nat → Except Stop Cdt
  | T, _, [] => pure T
  | T, flags, edge :: rest => do
    let i := T.mesh.toStartIndex edge
    let r ← constrainPositions edge (T.mesh.endpoints.getD i ⟨0, 0⟩) fuel T flags (T.positionsAt i)
    constrainEdges fuel r.1 r.2 rest

/-- `rene/_triangulation/constrained_delaunay.py` 136-188: `constrain`. -/
def constrain (T : Cdt) (fuel : Nat) : Except Stop Cdt :=
  constrainEdges fuel T T.constraintsFlags T.mesh.toEdges

/-- `rene/_triangulation/constrained_delaunay.py` 204-214: `delete_edge`. -/
def deleteEdge (T : Cdt) (edge : Nat) : Cdt :=
  { T with
    rightSide := T.rightSide.map fun side =>
      if edge = side ∨ toOppositeEdge edge = side then toOppositeEdge (T.mesh.toRightFromEnd side) else side
    leftSide := T.leftSide.map fun side =>
      if edge = side ∨ toOppositeEdge edge = side then T.mesh.toLeftFromStart side else side
    mesh := T.mesh.deleteEdge edge }

/-- `rene/_triangulation/constrained_delaunay.py` 222-234: `to_unique_boundary_edges` (the `assert`s of `__bool__`,
316-320, hold when both or none of the sides are defined). -/
def boundaryEdges (T : Cdt) (fuel : Nat) : Except Stop (List Nat) :=
  match T.leftSide with
  | none => pure T.mesh.toUniqueEdges
  | some start =>
    match T.mesh.boundaryLoop start fuel start with
    | none => throw .outOfFuel
    | some edges => pure edges

/-- `rene/_triangulation/constrained_delaunay.py` 115-134: the loop of `bound`; the head of the list is the last element
of `extraneous_mouths`. -/
def boundLoop : Nat → Cdt → List Nat → Except Stop Cdt
  | _, T, [] => pure T
  | 0, _, _ :: _ => throw .outOfFuel
  | fuel + 1, T, mouth :: rest => do
    let first := T.mesh.toLeftFromStart mouth
    assert (decide (T.mesh.orientPointToEdge mouth (T.mesh.toEnd first) = .counterclockwise))
    let second := T.mesh.toRightFromEnd first
    let T := T.deleteEdge mouth
    let rest := if !T.isPolygonEdge first then first :: rest else rest
    let rest := if !T.isPolygonEdge second then second :: rest else rest
    boundLoop fuel T rest

/-- `rene/_triangulation/constrained_delaunay.py` 105-134: `bound`. -/
def bound (T : Cdt) (fuel : Nat) : Except Stop Cdt := do
  let edges ← T.boundaryEdges fuel
  boundLoop fuel T (edges.filter fun e => !T.isPolygonEdge e).reverse

/-- `rene/_triangulation/constrained_delaunay.py` 477-495: `is_edge_inside_hole`. -/
def isEdgeInsideHole (T : Cdt) (edge : Nat) : Except Stop Bool := do
  let common := intersectPositions (T.positionsAt (T.mesh.toStartIndex edge)) (T.positionsAt (T.mesh.toEndIndex edge))
    false
  assert (decide (common.length ≤ 1))
  match common with
  | [] => pure false
  | p :: _ => isSegmentInsideHole (T.mesh.toStart edge) (T.mesh.toEnd edge) p.1 p.2 T.contours

/-- `rene/_triangulation/constrained_delaunay.py` 190-202: the loop of `cut`. -/
def cutLoop : Cdt → List Nat → Except Stop Cdt
  | T, [] => pure T
  | T, edge :: rest => do
    if ← T.isEdgeInsideHole edge then cutLoop (T.deleteEdge edge) rest else cutLoop T rest

/-- `rene/_triangulation/constrained_delaunay.py` 190-202: `cut`. -/
def cut (T : Cdt) : Except Stop Cdt := cutLoop T T.mesh.toUniqueEdges

/-- `rene/_triangulation/constrained_delaunay.py` 36-88: `from_polygon` before `constrain`. -/
def init (polygon : Polygon) (fuel : Nat) : Except Stop Cdt :=
  let contours := polygon.contoursVertices
  let vertices := toPolygonVertices contours
  match (Mesh.fromPoints (vertices.map Prod.fst)).buildDelaunay fuel with
  | none => throw .outOfFuel
  | some (mesh, sides) =>
    pure
      { leftSide := sides.map Prod.fst
        rightSide := sides.map Prod.snd
        mesh := mesh
        positions := vertices.map Prod.snd
        triangularHoles := (contours.zipIdx.filter fun c => decide (c.2 ≠ 0) && decide (c.1.length = 3)).map Prod.snd
        contours := contours }

/-- `rene/_triangulation/constrained_delaunay.py` 28-91: `from_polygon`. -/
def fromPolygon (polygon : Polygon) (fuel : Nat) : Except Stop Cdt := do
  let T ← init polygon fuel
  let T ← T.constrain fuel
  let T ← T.bound fuel
  T.cut

/-- `rene/_triangulation/constrained_delaunay.py` 236-278: `triangles_vertices`. -/
def trianglesVertices (T : Cdt) : List (Point × Point × Point) :=
  let m := T.mesh
  (m.toEdges.filter fun edge => m.isTriangleEdge edge &&
      !(!T.triangularHoles.isEmpty && areTriangularHoleVertices (T.positionsAt (m.toStartIndex edge))
        (T.positionsAt (m.toEndIndex edge)) (T.positionsAt (m.toEndIndex (m.toLeftFromStart edge))) T.triangularHoles)).map
    fun edge => (m.toStart edge, m.toEnd edge, m.toEnd (m.toLeftFromStart edge))

/-- `rene/_triangulation/constrained_delaunay.py` 216-220: `to_boundary_points`. -/
def boundaryPoints (T : Cdt) (fuel : Nat) : Except Stop (List Point) := do
  let edges ← T.boundaryEdges fuel
  pure (edges.map T.mesh.toStart)

end Cdt

end Rene
