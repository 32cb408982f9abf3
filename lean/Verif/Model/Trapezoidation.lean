import Verif.Model.Helpers
import Verif.Model.ContourOps

/-! Model of the trapezoidation (`rene/_seidel/`): the search graph built by inserting edges one by one, and
point location in it.

Nodes are kept in a list, as in the code.  A trapezoid object is identified with the position of the leaf which
owns it (its `leaf_index`: a leaf is created at the end of the list and never moved, and only nodes which are not
leaves are popped), so changing the attributes of a trapezoid is changing its leaf.  Reading a list outside of
its range, which raises in Python, gives a default value here, except where an error is modelled. -/

namespace Rene.Seidel

/-- `rene/_seidel/edge.py` 16-19: the fields of `class Edge` (without the orientation function). -/
structure Edge where
  interiorToLeft : Bool
  left : Nat
  right : Nat
  deriving DecidableEq, Repr

/-- `rene/_seidel/trapezoid.py` 67-94: the fields of `class Trapezoid`, without `leaf_index`. -/
structure Trap where
  isComponent : Bool
  left : Nat
  right : Nat
  below : Nat
  above : Nat
  lowerLeft : Option Nat := none
  lowerRight : Option Nat := none
  upperLeft : Option Nat := none
  upperRight : Option Nat := none
  deriving DecidableEq, Repr

/-- `rene/_seidel/leaf.py` 45-46, `x_node.py` 13-15, `y_node.py` 13-15: the three kinds of nodes. -/
inductive Node where
  | leaf (trapezoid : Trap)
  | x (point left right : Nat)
  | y (edge below above : Nat)
  deriving DecidableEq, Repr

abbrev Nodes := List Node

/-- The point at a position. -/
def pt (endpoints : List Point) (i : Nat) : Point := endpoints.getD i ⟨0, 0⟩

/-- The edge at a position. -/
def edgeAt (edges : List Edge) (i : Nat) : Edge := edges.getD i ⟨false, 0, 0⟩

/-- `rene/_seidel/edge.py` 38-47: `orientation_of`. -/
def Edge.orientationOf (e : Edge) (point : Point) (endpoints : List Point) : Orientation :=
  orient (pt endpoints e.left) (pt endpoints e.right) point

/-- `rene/_seidel/edge.py` 76-104: `is_under`. -/
def Edge.isUnder (self other : Edge) (endpoints : List Point) : Bool :=
  let otherLeft := self.orientationOf (pt endpoints other.left) endpoints
  let otherRight := self.orientationOf (pt endpoints other.right) endpoints
  if otherLeft = otherRight then otherLeft = .counterclockwise
  else if otherLeft = .collinear then otherRight = .counterclockwise
  else
    let left := other.orientationOf (pt endpoints self.left) endpoints
    let right := other.orientationOf (pt endpoints self.right) endpoints
    if left = right then left = .clockwise
    else if left = .collinear then right = .clockwise
    else if otherRight = .collinear then otherLeft = .counterclockwise
    else if right = .collinear then left = .clockwise
    else false

/-- `rene/_seidel/leaf.py` 15-28, `x_node.py` 18-37, `y_node.py` 18-41: `locate`, started at a node.  The
recursion of Python is given fuel here; `none` stands for its exhaustion (`C39_locate_terminates`: it is not
reached). -/
def locateFrom (edges : List Edge) (endpoints : List Point) (nodes : Nodes) (point : Point) :
    Nat → Nat → Option Location
  | 0, _ => none
  | fuel + 1, i =>
    match nodes[i]? with
    | none => none
    | some (.leaf t) => some (if t.isComponent then .interior else .exterior)
    | some (.x p left right) =>
      if point.ltB (pt endpoints p) then locateFrom edges endpoints nodes point fuel left
      else if (pt endpoints p).ltB point then locateFrom edges endpoints nodes point fuel right
      else some .boundary
    | some (.y e below above) =>
      match (edgeAt edges e).orientationOf point endpoints with
      | .counterclockwise => locateFrom edges endpoints nodes point fuel above
      | .clockwise => locateFrom edges endpoints nodes point fuel below
      | .collinear => some .boundary

/-- `rene/_seidel/leaf.py` 41-43, `x_node.py` 59-67, `y_node.py` 59-67: `to_height`, with fuel. -/
def heightFrom (nodes : Nodes) : Nat → Nat → Option Nat
  | 0, _ => none
  | fuel + 1, i =>
    match nodes[i]? with
    | none => none
    | some (.leaf _) => some 0
    | some (.x _ left right) =>
      match heightFrom nodes fuel left, heightFrom nodes fuel right with
      | some a, some b => some (max a b + 1)
      | _, _ => none
    | some (.y _ below above) =>
      match heightFrom nodes fuel below, heightFrom nodes fuel above with
      | some a, some b => some (max a b + 1)
      | _, _ => none

/-- `rene/_seidel/leaf.py` 30-39, `x_node.py` 39-57, `y_node.py` 43-57: `search_edge_node`, on positions. -/
def searchEdgeNode (edge : Edge) (edges : List Edge) (endpoints : List Point) (nodes : Nodes) (i : Nat) : Nat :=
  match nodes[i]? with
  | some (.x p left right) => if (pt endpoints edge.left).ltB (pt endpoints p) then left else right
  | some (.y e below above) => if (edgeAt edges e).isUnder edge endpoints then above else below
  | _ => i

/-- Whether the node is a leaf (`isinstance(node, Leaf)`, `rene/_seidel/trapezoidation.py` 582, 612). -/
def isLeaf (nodes : Nodes) (i : Nat) : Bool :=
  match nodes[i]? with
  | some (.leaf _) => true
  | _ => false

/-- The trapezoid owned by a leaf. -/
def trapAt (nodes : Nodes) (i : Nat) : Trap :=
  match nodes[i]? with
  | some (.leaf t) => t
  | _ => ⟨false, 0, 0, 0, 0, none, none, none, none⟩

/-- Change of attributes of the trapezoid owned by a leaf. -/
def modTrap (nodes : Nodes) (i : Nat) (f : Trap → Trap) : Nodes :=
  match nodes[i]? with
  | some (.leaf t) => nodes.set i (.leaf (f t))
  | _ => nodes

/-- `rene/_seidel/trapezoid.py` 33-35: `set_as_lower_left`. -/
def setAsLowerLeft (nodes : Nodes) (self value : Nat) : Nodes :=
  modTrap (modTrap nodes self fun t => { t with lowerLeft := some value }) value
    fun t => { t with lowerRight := some self }

/-- `rene/_seidel/trapezoid.py` 37-39: `set_as_lower_right`. -/
def setAsLowerRight (nodes : Nodes) (self value : Nat) : Nodes :=
  modTrap (modTrap nodes self fun t => { t with lowerRight := some value }) value
    fun t => { t with lowerLeft := some self }

/-- `rene/_seidel/trapezoid.py` 41-43: `set_as_upper_left`. -/
def setAsUpperLeft (nodes : Nodes) (self value : Nat) : Nodes :=
  modTrap (modTrap nodes self fun t => { t with upperLeft := some value }) value
    fun t => { t with upperRight := some self }

/-- `rene/_seidel/trapezoid.py` 45-47: `set_as_upper_right`. -/
def setAsUpperRight (nodes : Nodes) (self value : Nat) : Nodes :=
  modTrap (modTrap nodes self fun t => { t with upperRight := some value }) value
    fun t => { t with upperLeft := some self }

/-- `rene/_seidel/trapezoidation.py` 608-613: `_get_trapezoid`. -/
def getTrapezoid (nodes : Nodes) (i : Nat) : Except Err Nat :=
  if isLeaf nodes i then .ok i else .error .assertionError

/-- `rene/_seidel/trapezoidation.py` 616-625: `_maybe_set_as_lower_left`
(`trapezoid.py` 21-22: `reset_lower_left`). -/
def maybeSetAsLowerLeft (nodes : Nodes) (trapezoid : Nat) : Option Nat → Except Err Nodes
  | none => .ok (modTrap nodes trapezoid fun t => { t with lowerLeft := none })
  | some i => do .ok (setAsLowerLeft nodes trapezoid (← getTrapezoid nodes i))

/-- `rene/_seidel/trapezoidation.py` 628-637: `_maybe_set_as_lower_right`
(`trapezoid.py` 24-25: `reset_lower_right`). -/
def maybeSetAsLowerRight (nodes : Nodes) (trapezoid : Nat) : Option Nat → Except Err Nodes
  | none => .ok (modTrap nodes trapezoid fun t => { t with lowerRight := none })
  | some i => do .ok (setAsLowerRight nodes trapezoid (← getTrapezoid nodes i))

/-- `rene/_seidel/trapezoidation.py` 640-649: `_maybe_set_as_upper_left`
(`trapezoid.py` 27-28: `reset_upper_left`). -/
def maybeSetAsUpperLeft (nodes : Nodes) (trapezoid : Nat) : Option Nat → Except Err Nodes
  | none => .ok (modTrap nodes trapezoid fun t => { t with upperLeft := none })
  | some i => do .ok (setAsUpperLeft nodes trapezoid (← getTrapezoid nodes i))

/-- `rene/_seidel/trapezoidation.py` 652-661: `_maybe_set_as_upper_right`
(`trapezoid.py` 30-31: `reset_upper_right`). -/
def maybeSetAsUpperRight (nodes : Nodes) (trapezoid : Nat) : Option Nat → Except Err Nodes
  | none => .ok (modTrap nodes trapezoid fun t => { t with upperRight := none })
  | some i => do .ok (setAsUpperRight nodes trapezoid (← getTrapezoid nodes i))

/-- `rene/_seidel/trapezoidation.py` 516-538: `_create_trapezoid`; the nodes afterwards and the position of the
new leaf. -/
def createTrapezoid (edges : List Edge) (nodes : Nodes) (left right below above : Nat) : Nodes × Nat :=
  (nodes ++ [.leaf ⟨(edgeAt edges below).interiorToLeft && !(edgeAt edges above).interiorToLeft,
    left, right, below, above, none, none, none, none⟩], nodes.length)

/-- `rene/_seidel/trapezoidation.py` 541-550: `_create_x_node`. -/
def createXNode (nodes : Nodes) (point left right : Nat) : Nodes × Nat :=
  (nodes ++ [.x point left right], nodes.length)

/-- `rene/_seidel/trapezoidation.py` 553-562: `_create_y_node`. -/
def createYNode (nodes : Nodes) (edge below above : Nat) : Nodes × Nat :=
  (nodes ++ [.y edge below above], nodes.length)

/-- `rene/_seidel/trapezoidation.py` 720-730: `_replace_node`. -/
def replaceNode (nodes : Nodes) (original replacement : Nat) : Except Err Nodes :=
  if replacement + 1 = nodes.length then
    match nodes[replacement]? with
    | some node => .ok (nodes.dropLast.set original node)
    | none => .error .indexError
  else .error .assertionError

/-- `rene/_seidel/trapezoidation.py` 214-237, 434-459: the part of inserting an edge at its left end, common to
`_add_edge_to_first_trapezoid` and `_add_edge_to_single_trapezoid`: the neighbours to the left are passed to the
new trapezoids, or a new trapezoid is put to the left of the edge.  Gives the nodes and the replacement node. -/
def attachLeft (edges : List Edge) (endpoints : List Point) (nodes : Nodes) (e t above below replacement : Nat) :
    Except Err (Nodes × Nat) :=
  let edge := edgeAt edges e
  if pt endpoints edge.left = pt endpoints (trapAt nodes t).left then do
    let nodes ← maybeSetAsUpperLeft nodes above (trapAt nodes t).upperLeft
    let nodes ← maybeSetAsLowerLeft nodes below (trapAt nodes t).lowerLeft
    pure (nodes, replacement)
  else do
    let (nodes, left) := createTrapezoid edges nodes (trapAt nodes t).left edge.left (trapAt nodes t).below
      (trapAt nodes t).above
    let nodes ← maybeSetAsLowerLeft nodes left (trapAt nodes t).lowerLeft
    let nodes ← maybeSetAsUpperLeft nodes left (trapAt nodes t).upperLeft
    let nodes := setAsLowerRight nodes left below
    let nodes := setAsUpperRight nodes left above
    pure (createXNode nodes edge.left left replacement)

/-- `rene/_seidel/trapezoidation.py` 291-322, 401-433: the part of inserting an edge at its right end, common to
`_add_edge_to_last_trapezoid` and `_add_edge_to_single_trapezoid`. -/
def attachRight (edges : List Edge) (endpoints : List Point) (nodes : Nodes) (e t above below replacement : Nat) :
    Except Err (Nodes × Nat) :=
  let edge := edgeAt edges e
  if pt endpoints edge.right = pt endpoints (trapAt nodes t).right then do
    let nodes ← maybeSetAsUpperRight nodes above (trapAt nodes t).upperRight
    let nodes ← maybeSetAsLowerRight nodes below (trapAt nodes t).lowerRight
    pure (nodes, replacement)
  else do
    let (nodes, right) := createTrapezoid edges nodes edge.right (trapAt nodes t).right (trapAt nodes t).below
      (trapAt nodes t).above
    let nodes ← maybeSetAsLowerRight nodes right (trapAt nodes t).lowerRight
    let nodes ← maybeSetAsUpperRight nodes right (trapAt nodes t).upperRight
    let nodes := setAsLowerLeft nodes right below
    let nodes := setAsUpperLeft nodes right above
    pure (createXNode nodes edge.right replacement right)

/-- `rene/_seidel/trapezoidation.py` 185-244: `_add_edge_to_first_trapezoid`; the nodes afterwards and the
positions of the trapezoids `above` and `below`. -/
def addEdgeToFirst (edges : List Edge) (endpoints : List Point) (nodes : Nodes) (e t : Nat) :
    Except Err (Nodes × Nat × Nat) := do
  let edge := edgeAt edges e
  let (nodes, above) := createTrapezoid edges nodes edge.left (trapAt nodes t).right e (trapAt nodes t).above
  let (nodes, below) := createTrapezoid edges nodes edge.left (trapAt nodes t).right (trapAt nodes t).below e
  let (nodes, replacement) := createYNode nodes e below above
  let (nodes, replacement) ← attachLeft edges endpoints nodes e t above below replacement
  let nodes ← maybeSetAsUpperRight nodes above (trapAt nodes t).upperRight
  let nodes ← maybeSetAsLowerRight nodes below (trapAt nodes t).lowerRight
  let nodes ← replaceNode nodes t replacement
  pure (nodes, above, below)

/-- `rene/_seidel/trapezoidation.py` 258-273, 336-349: the trapezoid above the inserted edge: the previous one,
made longer, or a new one. -/
def extendAbove (edges : List Edge) (nodes : Nodes) (e t prevAbove right : Nat) : Except Err (Nodes × Nat) :=
  if (trapAt nodes prevAbove).above = (trapAt nodes t).above then
    pure (modTrap nodes prevAbove fun a => { a with right := right }, prevAbove)
  else do
    let (nodes, above) := createTrapezoid edges nodes (trapAt nodes t).left right e (trapAt nodes t).above
    let nodes := setAsLowerLeft nodes above prevAbove
    let nodes ← maybeSetAsUpperLeft nodes above (trapAt nodes t).upperLeft
    pure (nodes, above)

/-- `rene/_seidel/trapezoidation.py` 274-287, 350-363: the trapezoid below the inserted edge: the previous one,
made longer, or a new one. -/
def extendBelow (edges : List Edge) (nodes : Nodes) (e t prevBelow right : Nat) : Except Err (Nodes × Nat) :=
  if (trapAt nodes prevBelow).below = (trapAt nodes t).below then
    pure (modTrap nodes prevBelow fun a => { a with right := right }, prevBelow)
  else do
    let (nodes, below) := createTrapezoid edges nodes (trapAt nodes t).left right (trapAt nodes t).below e
    let nodes := setAsUpperLeft nodes below prevBelow
    let nodes ← maybeSetAsLowerLeft nodes below (trapAt nodes t).lowerLeft
    pure (nodes, below)

/-- `rene/_seidel/trapezoidation.py` 247-323: `_add_edge_to_last_trapezoid` (`is` between indices is equality:
the compared objects are copies of the same index). -/
def addEdgeToLast (edges : List Edge) (endpoints : List Point) (nodes : Nodes) (e t prevAbove prevBelow : Nat) :
    Except Err Nodes := do
  let edge := edgeAt edges e
  let (nodes, above) ← extendAbove edges nodes e t prevAbove edge.right
  let (nodes, below) ← extendBelow edges nodes e t prevBelow edge.right
  let (nodes, replacement) := createYNode nodes e below above
  let (nodes, replacement) ← attachRight edges endpoints nodes e t above below replacement
  replaceNode nodes t replacement

/-- `rene/_seidel/trapezoidation.py` 326-369: `_add_edge_to_middle_trapezoid`. -/
def addEdgeToMiddle (edges : List Edge) (nodes : Nodes) (e t prevAbove prevBelow : Nat) :
    Except Err (Nodes × Nat × Nat) := do
  let (nodes, above) ← extendAbove edges nodes e t prevAbove (trapAt nodes t).right
  let (nodes, below) ← extendBelow edges nodes e t prevBelow (trapAt nodes t).right
  let nodes ← maybeSetAsUpperRight nodes above (trapAt nodes t).upperRight
  let nodes ← maybeSetAsLowerRight nodes below (trapAt nodes t).lowerRight
  let (nodes, replacement) := createYNode nodes e below above
  let nodes ← replaceNode nodes t replacement
  pure (nodes, above, below)

/-- `rene/_seidel/trapezoidation.py` 372-460: `_add_edge_to_single_trapezoid`. -/
def addEdgeToSingle (edges : List Edge) (endpoints : List Point) (nodes : Nodes) (e t : Nat) :
    Except Err Nodes := do
  let edge := edgeAt edges e
  let (nodes, above) := createTrapezoid edges nodes edge.left edge.right e (trapAt nodes t).above
  let (nodes, below) := createTrapezoid edges nodes edge.left edge.right (trapAt nodes t).below e
  let (nodes, replacement) := createYNode nodes e below above
  let (nodes, replacement) ← attachRight edges endpoints nodes e t above below replacement
  let (nodes, replacement) ← attachLeft edges endpoints nodes e t above below replacement
  replaceNode nodes t replacement

/-- `rene/_seidel/trapezoidation.py` 575-580: the descent of `_find_intersecting_trapezoids`, with the number of
remaining iterations. -/
def descend (edge : Edge) (edges : List Edge) (endpoints : List Point) (nodes : Nodes) : Nat → Nat → Nat
  | 0, cursor => cursor
  | n + 1, cursor =>
    let candidate := searchEdgeNode edge edges endpoints nodes cursor
    if candidate = cursor then cursor else descend edge edges endpoints nodes n candidate

/-- `a or b` for optional indices (`rene/_seidel/trapezoidation.py` 587-602): also a zero is passed over. -/
def orIndex (a b : Option Nat) : Option Nat :=
  match a with
  | some (n + 1) => some (n + 1)
  | _ => b

/-- `rene/_seidel/trapezoidation.py` 587-602: the index of the next trapezoid met by the edge. -/
def nextIndex (edge : Edge) (endpoints : List Point) (t : Trap) : Option Nat :=
  if edge.orientationOf (pt endpoints t.right) endpoints = .clockwise then orIndex t.upperRight t.lowerRight
  else orIndex t.lowerRight t.upperRight

/-- `rene/_seidel/trapezoidation.py` 583-605: the loop of `_find_intersecting_trapezoids` which collects the
trapezoids to the right; with fuel, whose exhaustion is reported as `RecursionError` would be. -/
def collectRight (edge : Edge) (endpoints : List Point) (nodes : Nodes) : Nat → Nat → Except Err (List Nat)
  | 0, _ => .error .overflowError
  | fuel + 1, t =>
    if (pt endpoints (trapAt nodes t).right).ltB (pt endpoints edge.right) then
      match nextIndex edge endpoints (trapAt nodes t) with
      | none => .error .assertionError
      | some i => do
        let next ← getTrapezoid nodes i
        let rest ← collectRight edge endpoints nodes fuel next
        pure (t :: rest)
    else pure [t]

/-- `rene/_seidel/trapezoidation.py` 565-605: `_find_intersecting_trapezoids`. -/
def findIntersecting (edges : List Edge) (endpoints : List Point) (nodes : Nodes) (e : Nat) :
    Except Err (List Nat) := do
  let edge := edgeAt edges e
  let cursor ← getTrapezoid nodes (descend edge edges endpoints nodes (nodes.length - 1) 0)
  collectRight edge endpoints nodes (nodes.length + 1) cursor

/-- `rene/_seidel/trapezoidation.py` 164-182: the middle and the last trapezoids in `_add_edge`. -/
def addEdgeRest (edges : List Edge) (endpoints : List Point) (e : Nat) :
    Nodes → Nat → Nat → List Nat → Except Err Nodes
  | nodes, _, _, [] => pure nodes
  | nodes, prevAbove, prevBelow, [t] => addEdgeToLast edges endpoints nodes e t prevAbove prevBelow
  | nodes, prevAbove, prevBelow, t :: rest => do
    let (nodes, above, below) ← addEdgeToMiddle edges nodes e t prevAbove prevBelow
    addEdgeRest edges endpoints e nodes above below rest

/-- `rene/_seidel/trapezoidation.py` 147-182: `_add_edge`.  The code keeps references to the collected trapezoids;
if one of them were met twice, it would go on with an object whose leaf has been replaced.  This case is not
modelled (`keyError`); by `C62_multisegment_located` and `C63_polygon_boundary` it does not happen when edges meet
at common end points only, and the theorems about other edges speak about constructions which succeed. -/
def addEdge (edges : List Edge) (endpoints : List Point) (nodes : Nodes) (e : Nat) : Except Err Nodes := do
  let trapezoids ← findIntersecting edges endpoints nodes e
  if ¬ trapezoids.Nodup then throw .keyError
  match trapezoids with
  | [] => pure nodes
  | [t] => addEdgeToSingle edges endpoints nodes e t
  | t :: rest =>
    let (nodes, above, below) ← addEdgeToFirst edges endpoints nodes e t
    addEdgeRest edges endpoints e nodes above below rest

/-- `rene/_seidel/trapezoidation.py` 25-144: `class Trapezoidation`. -/
structure Trapezoidation where
  edges : List Edge
  endpoints : List Point
  nodes : Nodes
  deriving DecidableEq, Repr

/-- `rene/_seidel/trapezoidation.py` 89-90, 120-122: `height` (with enough fuel: `C39_height`). -/
def Trapezoidation.height (t : Trapezoidation) : Option Nat := heightFrom t.nodes (t.nodes.length + 1) 0

/-- `rene/_seidel/trapezoidation.py` 92-95: `locate`. -/
def Trapezoidation.locate (t : Trapezoidation) (point : Point) : Option Location :=
  locateFrom t.edges t.endpoints t.nodes point (t.nodes.length + 1) 0

/-- `rene/_seidel/trapezoidation.py` 140-144: `__contains__`. -/
def Trapezoidation.contains (t : Trapezoidation) (point : Point) : Option Bool :=
  (t.locate point).map fun l => l ≠ .exterior

/-- `(b - a) or 1` (`rene/_seidel/trapezoidation.py` 472). -/
def sizeOrOne (a b : ℚ) : ℚ := if b - a = 0 then 1 else b - a

/-- `rene/_seidel/trapezoidation.py` 471-494: the corners added by `_box_to_trapezoid`. -/
def boxCorners (box : Box) : List Point :=
  let dx := sizeOrOne box.minX box.maxX
  let dy := sizeOrOne box.minY box.maxY
  [⟨box.minX - dx, box.maxY + dy⟩, ⟨box.maxX + dx, box.maxY + dy⟩,
    ⟨box.minX - dx, box.minY - dy⟩, ⟨box.maxX + dx, box.minY - dy⟩]

/-- The insertion of the edges at the positions from `e` on
(`rene/_seidel/trapezoidation.py` 115-116). -/
def addEdges (edges : List Edge) (endpoints : List Point) (nodes : Nodes) : List Nat → Except Err Nodes
  | [] => pure nodes
  | e :: rest => do
    let nodes ← addEdge edges endpoints nodes e
    addEdges edges endpoints nodes rest

/-- `rene/_seidel/trapezoidation.py` 97-117: `_from_box`, with `_box_to_trapezoid` (463-513). -/
def fromBox (box : Box) (edges : List Edge) (endpoints : List Point) : Except Err Trapezoidation := do
  if endpoints = [] then throw .indexError
  let n := edges.length
  let k := endpoints.length
  let endpoints := endpoints ++ boxCorners box
  let edges := edges ++ [⟨true, k, k + 1⟩, ⟨false, k + 2, k + 3⟩]
  let (nodes, t) := createTrapezoid edges [] (k + 2) (k + 3) (n + 1) n
  let nodes ← addEdgeToSingle edges endpoints nodes 0 t
  let nodes ← addEdges edges endpoints nodes (List.range' 1 (n - 1))
  pure ⟨edges, endpoints, nodes⟩

/-- `rene/_seidel/trapezoidation.py` 38-57: the edge of a segment whose end points are at the positions `2 * i`
and `2 * i + 1`. -/
def segmentEdge (i : Nat) (s : Segment) : Edge :=
  if s.start.ltB s.«end» then ⟨false, 2 * i, 2 * i + 1⟩ else ⟨false, 2 * i + 1, 2 * i⟩

/-- `rene/_seidel/trapezoidation.py` 27-61: `from_multisegment`. -/
def fromMultisegment (m : Multisegment) (seed : Nat) : Except Err Trapezoidation :=
  fromBox m.boundingBox (permute (m.segments.mapIdx segmentEdge) seed)
    (m.segments.flatMap fun s => [s.start, s.«end»])

/-- `rene/_seidel/trapezoidation.py` 683-700: the edges between neighbouring vertices in
`_populate_from_contour`. -/
def contourEdgesFrom (correct : Bool) : Nat → List Point → List Edge
  | i, a :: b :: rest =>
    (if a.ltB b then ⟨correct, i, i + 1⟩ else ⟨!correct, i + 1, i⟩) :: contourEdgesFrom correct (i + 1) (b :: rest)
  | _, _ => []

/-- `rene/_seidel/trapezoidation.py` 664-717: `_populate_from_contour`; the edges which it appends when the
vertices are put from position `k` on. -/
def contourEdges (c : Contour) (target : Orientation) (k : Nat) : List Edge :=
  let vs := c.vertices
  let correct : Bool := toContourOrientation vs (toArgMin vs) = target
  let first := vs.headD ⟨0, 0⟩
  let last := vs.getLastD ⟨0, 0⟩
  contourEdgesFrom correct k vs ++
    [if first.ltB last then ⟨correct, k, k + vs.length - 1⟩ else ⟨!correct, k + vs.length - 1, k⟩]

/-- `rene/_seidel/trapezoidation.py` 81-84: the loop over the holes in `from_polygon`. -/
def holesEdges : Nat → List Contour → List Edge
  | _, [] => []
  | k, h :: rest => contourEdges h .clockwise k ++ holesEdges (k + h.vertices.length) rest

/-- `rene/_seidel/trapezoidation.py` 63-86: `from_polygon`. -/
def fromPolygon (p : Polygon) (seed : Nat) : Except Err Trapezoidation :=
  fromBox p.boundingBox
    (permute (contourEdges p.border .counterclockwise 0 ++ holesEdges p.border.vertices.length p.holes) seed)
    (p.border.vertices ++ p.holes.flatMap Contour.vertices)

end Rene.Seidel
