import Verif.Model.Helpers
import Verif.Model.Clipping

/-! Model of the quad-edge mesh and of the divide and conquer Delaunay triangulation
(`rene/_triangulation/quad_edge.py`, `mesh.py`, `delaunay.py`).

Edges are natural numbers.  Reading a position outside of a list, which raises in Python, gives `0` here;
`C38_reachable_mesh` shows that this does not happen in meshes built with the operations. -/

namespace Rene

/-- `rene/_triangulation/quad_edge.py` 9-13: `to_opposite_edge`; `>> 2`, `<< 2` and `& 3` are the quotient by,
the product with and the remainder modulo 4. -/
def toOppositeEdge (edge : Nat) : Nat := edge / 4 * 4 + (edge + 2) % 4

/-- `rene/_triangulation/quad_edge.py` 16-20: `to_rotated_edge`. -/
def toRotatedEdge (edge : Nat) : Nat := edge / 4 * 4 + (edge + 1) % 4

/-- `rene/_triangulation/mesh.py` 28-31, 171-182: the fields of `class Mesh`. -/
structure Mesh where
  endpoints : List Point
  leftFromStart : List Nat
  startsIndices : List Nat
  deriving DecidableEq, Repr

namespace Mesh

/-- `rene/_triangulation/mesh.py` 33-37: `from_points`. -/
def fromPoints (endpoints : List Point) : Mesh := ⟨endpoints, [], []⟩

/-- `rene/_triangulation/mesh.py` 128-132: `to_left_from_start`. -/
def toLeftFromStart (m : Mesh) (edge : Nat) : Nat := m.leftFromStart.getD edge 0

/-- `rene/_triangulation/mesh.py` 140-144: `to_right_from_start`. -/
def toRightFromStart (m : Mesh) (edge : Nat) : Nat :=
  toRotatedEdge (m.toLeftFromStart (toRotatedEdge edge))

/-- `rene/_triangulation/mesh.py` 120-126: `to_left_from_end`. -/
def toLeftFromEnd (m : Mesh) (edge : Nat) : Nat :=
  toRotatedEdge (m.toLeftFromStart (toOppositeEdge (toRotatedEdge edge)))

/-- `rene/_triangulation/mesh.py` 134-138: `to_right_from_end`. -/
def toRightFromEnd (m : Mesh) (edge : Nat) : Nat := m.toLeftFromStart (toOppositeEdge edge)

/-- `rene/_triangulation/mesh.py` 152-154: `to_start_index`, without its `assert` (the edge is even). -/
def toStartIndex (m : Mesh) (edge : Nat) : Nat := m.startsIndices.getD (edge / 2) 0

/-- `rene/_triangulation/mesh.py` 117-118: `to_end_index`. -/
def toEndIndex (m : Mesh) (edge : Nat) : Nat := m.toStartIndex (toOppositeEdge edge)

/-- `rene/_triangulation/mesh.py` 146-150: `to_start`. -/
def toStart (m : Mesh) (edge : Nat) : Point := m.endpoints.getD (m.toStartIndex edge) ⟨0, 0⟩

/-- `rene/_triangulation/mesh.py` 111-115: `to_end`. -/
def toEnd (m : Mesh) (edge : Nat) : Point := m.endpoints.getD (m.toEndIndex edge) ⟨0, 0⟩

/-- `rene/_triangulation/mesh.py` 47-58: `create_edge`. -/
def createEdge (m : Mesh) (startIndex endIndex : Nat) : Mesh × Nat :=
  let edge := m.leftFromStart.length
  ({ m with
      startsIndices := m.startsIndices ++ [startIndex, endIndex]
      leftFromStart := m.leftFromStart ++ [edge, edge + 3, edge + 2, edge + 1] }, edge)

/-- `rene/_triangulation/mesh.py` 72-82: `splice_edges`. -/
def spliceEdges (m : Mesh) (first second : Nat) : Mesh :=
  let alpha := toRotatedEdge (m.toLeftFromStart first)
  let beta := toRotatedEdge (m.toLeftFromStart second)
  let m := { m with leftFromStart :=
    (m.leftFromStart.set first (m.toLeftFromStart second)).set second (m.toLeftFromStart first) }
  { m with leftFromStart :=
    (m.leftFromStart.set alpha (m.toLeftFromStart beta)).set beta (m.toLeftFromStart alpha) }

/-- `rene/_triangulation/mesh.py` 39-45: `connect_edges`. -/
def connectEdges (m : Mesh) (first second : Nat) : Mesh × Nat :=
  let r := m.createEdge (m.toEndIndex first) (m.toStartIndex second)
  let m := r.1.spliceEdges r.2 (r.1.toLeftFromEnd first)
  (m.spliceEdges (toOppositeEdge r.2) second, r.2)

/-- `rene/_triangulation/mesh.py` 60-63: `is_deleted_edge`, without its `assert`. -/
def isDeletedEdge (m : Mesh) (edge : Nat) : Bool := m.toLeftFromStart edge == edge

/-- `rene/_triangulation/mesh.py` 65-70: `delete_edge`. -/
def deleteEdge (m : Mesh) (edge : Nat) : Mesh :=
  let m := m.spliceEdges edge (m.toRightFromStart edge)
  let oppositeEdge := toOppositeEdge edge
  m.spliceEdges oppositeEdge (m.toRightFromStart oppositeEdge)

/-- `rene/_triangulation/mesh.py` 84-99: `swap_diagonal`, without its `assert`s. -/
def swapDiagonal (m : Mesh) (edge : Nat) : Mesh :=
  let side := m.toRightFromStart edge
  let opposite := toOppositeEdge edge
  let oppositeSide := m.toRightFromStart opposite
  let m := m.spliceEdges edge side
  let m := m.spliceEdges opposite oppositeSide
  let m := m.spliceEdges edge (m.toLeftFromEnd side)
  let m := m.spliceEdges opposite (m.toLeftFromEnd oppositeSide)
  let m := { m with startsIndices := m.startsIndices.set (edge / 2) (m.toEndIndex side) }
  { m with startsIndices := m.startsIndices.set (opposite / 2) (m.toEndIndex oppositeSide) }

/-- `rene/_triangulation/mesh.py` 101-109: `to_edges`. -/
def toEdges (m : Mesh) : List Nat :=
  ((List.range ((m.leftFromStart.length + 1) / 2)).map (2 * ·)).filter fun edge => !m.isDeletedEdge edge

/-- `rene/_triangulation/mesh.py` 156-164: `to_unique_edges`. -/
def toUniqueEdges (m : Mesh) : List Nat :=
  ((List.range ((m.leftFromStart.length + 3) / 4)).map (4 * ·)).filter fun edge => !m.isDeletedEdge edge

/-- `rene/_triangulation/mesh.py` 387-394: `orient_point_to_edge`. -/
def orientPointToEdge (m : Mesh) (baseEdge : Nat) (point : Point) : Orientation :=
  orient (m.toStart baseEdge) (m.toEnd baseEdge) point

/-- `rene/_triangulation/mesh.py` 185-221: `build_base_edge`; `none` when the fuel is over. -/
def buildBaseEdge (m : Mesh) : Nat → Nat → Nat → Option (Mesh × Nat × Nat × Nat)
  | 0, _, _ => none
  | fuel + 1, firstRightSide, secondLeftSide =>
    if m.orientPointToEdge firstRightSide (m.toStart secondLeftSide) = .counterclockwise then
      buildBaseEdge m fuel (m.toLeftFromEnd firstRightSide) secondLeftSide
    else if m.orientPointToEdge secondLeftSide (m.toStart firstRightSide) = .clockwise then
      buildBaseEdge m fuel firstRightSide (m.toRightFromEnd secondLeftSide)
    else
      let r := m.connectEdges (toOppositeEdge secondLeftSide) firstRightSide
      some (r.1, firstRightSide, r.2, secondLeftSide)

/-- `rene/_triangulation/mesh.py` 267-288: `create_triangle`. -/
def createTriangle (m : Mesh) (left mid right : Nat) : Mesh × Nat × Nat :=
  let r := m.createEdge left mid
  let firstEdge := r.2
  let r := r.1.createEdge mid right
  let secondEdge := r.2
  let m := r.1.spliceEdges (toOppositeEdge firstEdge) secondEdge
  let orientation := m.orientPointToEdge firstEdge (m.toEnd secondEdge)
  if orientation = .clockwise then
    let r := m.connectEdges secondEdge firstEdge
    (r.1, toOppositeEdge r.2, r.2)
  else if orientation = .collinear then (m, firstEdge, toOppositeEdge secondEdge)
  else ((m.connectEdges secondEdge firstEdge).1, firstEdge, toOppositeEdge secondEdge)

/-- `rene/_triangulation/mesh.py` 303-322: the loop of `find_left_candidate`. -/
def leftCandidateLoop (baseEdge : Nat) : Nat → Mesh → Nat → Option (Mesh × Nat)
  | 0, _, _ => none
  | fuel + 1, m, result =>
    if m.orientPointToEdge baseEdge (m.toEnd (m.toLeftFromStart result)) = .clockwise ∧
        locatePointInCircle (m.toEnd (m.toLeftFromStart result)) (m.toEnd baseEdge) (m.toStart baseEdge)
          (m.toEnd result) = .interior then
      leftCandidateLoop baseEdge fuel (m.deleteEdge result) (m.toLeftFromStart result)
    else some (m, result)

/-- `rene/_triangulation/mesh.py` 291-322: `find_left_candidate`. -/
def findLeftCandidate (m : Mesh) (baseEdge fuel : Nat) : Option (Mesh × Option Nat) :=
  let result := m.toLeftFromStart (toOppositeEdge baseEdge)
  if m.orientPointToEdge baseEdge (m.toEnd result) ≠ .clockwise then some (m, none)
  else (leftCandidateLoop baseEdge fuel m result).map fun r => (r.1, some r.2)

/-- `rene/_triangulation/mesh.py` 337-356: the loop of `find_right_candidate`. -/
def rightCandidateLoop (baseEdge : Nat) : Nat → Mesh → Nat → Option (Mesh × Nat)
  | 0, _, _ => none
  | fuel + 1, m, result =>
    if m.orientPointToEdge baseEdge (m.toEnd (m.toRightFromStart result)) = .clockwise ∧
        locatePointInCircle (m.toEnd (m.toRightFromStart result)) (m.toEnd baseEdge) (m.toStart baseEdge)
          (m.toEnd result) = .interior then
      rightCandidateLoop baseEdge fuel (m.deleteEdge result) (m.toRightFromStart result)
    else some (m, result)

/-- `rene/_triangulation/mesh.py` 325-356: `find_right_candidate`. -/
def findRightCandidate (m : Mesh) (baseEdge fuel : Nat) : Option (Mesh × Option Nat) :=
  let result := m.toRightFromStart baseEdge
  if m.orientPointToEdge baseEdge (m.toEnd result) ≠ .clockwise then some (m, none)
  else (rightCandidateLoop baseEdge fuel m result).map fun r => (r.1, some r.2)

/-- `rene/_triangulation/mesh.py` 397-437: `rise_bubble`; `loops` is the fuel of the loops looking for
candidates. -/
def riseBubble (loops : Nat) : Nat → Mesh → Nat → Option Mesh
  | 0, _, _ => none
  | fuel + 1, m, baseEdge =>
    match m.findLeftCandidate baseEdge loops with
    | none => none
    | some (m, leftCandidate) =>
      match m.findRightCandidate baseEdge loops with
      | none => none
      | some (m, rightCandidate) =>
        match leftCandidate, rightCandidate with
        | some l, some r =>
          if locatePointInCircle (m.toEnd r) (m.toEnd l) (m.toEnd baseEdge) (m.toStart baseEdge)
              = .interior then
            let c := m.connectEdges r (toOppositeEdge baseEdge)
            riseBubble loops fuel c.1 c.2
          else
            let c := m.connectEdges (toOppositeEdge baseEdge) (toOppositeEdge l)
            riseBubble loops fuel c.1 c.2
        | some l, none =>
          let c := m.connectEdges (toOppositeEdge baseEdge) (toOppositeEdge l)
          riseBubble loops fuel c.1 c.2
        | none, some r =>
          let c := m.connectEdges r (toOppositeEdge baseEdge)
          riseBubble loops fuel c.1 c.2
        | none, none => some m

/-- `rene/_triangulation/mesh.py` 359-384: `merge`. -/
def merge (m : Mesh) (fuel : Nat) (firstSides secondSides : Nat × Nat) : Option (Mesh × Nat × Nat) :=
  match m.buildBaseEdge fuel firstSides.2 secondSides.1 with
  | none => none
  | some (m, firstRightSide, baseEdge, secondLeftSide) =>
    (riseBubble fuel fuel m baseEdge).map fun m =>
      (m, if m.toStart firstSides.1 = m.toStart firstRightSide then toOppositeEdge baseEdge else firstSides.1,
        if m.toStart secondLeftSide = m.toStart secondSides.2 then baseEdge else secondSides.2)

/-- `rene/_triangulation/mesh.py` 248-261: one round of merging of neighbouring parts. -/
def mergeRound (fuel : Nat) : Mesh → List (Nat × Nat) → Option (Mesh × List (Nat × Nat))
  | m, first :: second :: rest =>
    match m.merge fuel first second with
    | none => none
    | some (m, sides) => (mergeRound fuel m rest).map fun r => (r.1, sides :: r.2)
  | m, rest => some (m, rest)

/-- `rene/_triangulation/mesh.py` 247-261: the rounds of merging. -/
def mergeRounds (fuel : Nat) : Nat → Mesh → List (Nat × Nat) → Option (Mesh × List (Nat × Nat))
  | 0, m, sides => some (m, sides)
  | rounds + 1, m, sides =>
    match mergeRound fuel m sides with
    | none => none
    | some (m, sides) => mergeRounds fuel rounds m sides

/-- `rene/_triangulation/mesh.py` 232-235: the two-point parts. -/
def createSegments : Nat → Nat → Mesh → Mesh × List (Nat × Nat)
  | 0, _, m => (m, [])
  | count + 1, index, m =>
    let r := m.createEdge (2 * index) (2 * index + 1)
    let rest := createSegments count (index + 1) r.1
    (rest.1, (r.2, toOppositeEdge r.2) :: rest.2)

/-- `rene/_triangulation/mesh.py` 236-246: the three-point parts. -/
def createTriangles (offset : Nat) : Nat → Nat → Mesh → Mesh × List (Nat × Nat)
  | 0, _, m => (m, [])
  | count + 1, index, m =>
    let r := m.createTriangle (offset + 3 * index) (offset + 3 * index + 1) (offset + 3 * index + 2)
    let rest := createTriangles offset count (index + 1) r.1
    (rest.1, r.2 :: rest.2)

/-- `rene/_triangulation/mesh.py` 224-264: `build_delaunay_triangulation`; the outer option is `none` when the
fuel is over, the inner one when there are fewer than two points (`UNDEFINED_EDGE`) or the `assert` of line 262
fails. -/
def buildDelaunay (m : Mesh) (fuel : Nat) : Option (Mesh × Option (Nat × Nat)) :=
  if m.endpoints.length < 2 then some (m, none)
  else
    let cases := toBaseCases m.endpoints.length
    let s := createSegments cases.1 0 m
    let t := createTriangles (2 * cases.1) cases.2 0 s.1
    let sides := s.2 ++ t.2
    (mergeRounds fuel (ceilLog2 sides.length) t.1 sides).map fun r =>
      (r.1, match r.2 with
        | [sides] => some sides
        | _ => none)

/-- `rene/_triangulation/delaunay.py` 72-90 and the same condition in `constrained_delaunay.py` 248-261. -/
def isTriangleEdge (m : Mesh) (edge : Nat) : Bool :=
  let firstVertex := m.toStart edge
  let secondVertex := m.toEnd edge
  let thirdVertex := m.toEnd (m.toLeftFromStart edge)
  firstVertex.ltB secondVertex && firstVertex.ltB thirdVertex
    && decide (thirdVertex = m.toEnd (m.toRightFromStart (toOppositeEdge edge)))
    && decide (m.orientPointToEdge edge thirdVertex = .counterclockwise)

/-- `rene/_triangulation/delaunay.py` 60-92: `triangles_vertices`. -/
def trianglesVertices (m : Mesh) : List (Point × Point × Point) :=
  (m.toEdges.filter m.isTriangleEdge).map fun edge =>
    (m.toStart edge, m.toEnd edge, m.toEnd (m.toLeftFromStart edge))

/-- `rene/_triangulation/delaunay.py` 49-57: the loop of `to_boundary_points`, giving edges (as in
`constrained_delaunay.py` 224-233); `none` when the fuel is over. -/
def boundaryLoop (m : Mesh) (start : Nat) : Nat → Nat → Option (List Nat)
  | 0, _ => none
  | fuel + 1, edge =>
    let candidate := m.toRightFromEnd edge
    if candidate = start then some [edge] else (boundaryLoop m start fuel candidate).map (edge :: ·)

/-- `rene/_triangulation/delaunay.py` 46-58: `to_boundary_points`.  The class has no `__bool__`, so the
condition on line 47 always holds; `UNDEFINED_EDGE` (`none`) is odd, so that `to_start` fails with an
`AssertionError` (`mesh.py` 153).  The outer option is `none` when the fuel is over. -/
def toBoundaryPoints (m : Mesh) (leftSide : Option Nat) (fuel : Nat) : Option (Except Err (List Point)) :=
  match leftSide with
  | none => some (.error .assertionError)
  | some start => (m.boundaryLoop start fuel start).map fun edges => .ok (edges.map m.toStart)

/-- `rene/_triangulation/delaunay.py` 20-32: `from_points`. -/
def delaunayFromPoints (points : List Point) (fuel : Nat) : Option (Mesh × Option (Nat × Nat)) :=
  (fromPoints (deduplicate (points.mergeSort fun a b => !b.ltB a))).buildDelaunay fuel

end Mesh

end Rene
