import Verif.Model.Shaped
import Verif.Model.RelateLinear

/-! Model of `rene/_relating/shaped.py` and of `relate_to` of two polygons or multipolygons
(`rene/_relating/polygon.py`, `rene/_relating/multipolygon.py`).

The sweep engine of `rene/_relating/shaped.py` (lines 34-57, 188-547, 677-690) is the one of
`rene/_clipping/shaped.py` without the fields which serve the assembly of a result (`_are_from_result`,
`_below_event_from_result`, `_starts_ids`), and its `event.py`, `events_queue_key.py` and `sweep_line_key.py` are
copies of those of `rene/_clipping`; those fields do not influence the other ones, so the model of the engine is
`Shp` with any operation (`Shp.process`: `_pop` and `_process_event` 487-520; `Shp.init`:
`from_segments_iterables` and `__init__` 34-57, 206-252). -/

namespace Rene

/-- `rene/_relating/shaped.py` 549-553: `class EventKind`. -/
inductive EventKind where
  | commonPolylineSegment | commonRegionEdge | inside | outside
  deriving DecidableEq, Repr

namespace Shp

/-- `rene/_relating/shaped.py` 59-73: `classify_event`. -/
def classify (S : Shp) (event : Nat) : EventKind :=
  let leftEvent := S.lin.toLeft event
  match S.kind leftEvent with
  | .none => if S.other.getD (leftEvent / 2) false then .inside else .outside
  | .differentOrientation => .commonPolylineSegment
  | .sameOrientation => .commonRegionEdge

/-- `rene/_relating/shaped.py` 75-90: `has_edges_cross`; the parameters are `flags[False]` and `flags[True]`. -/
def hasEdgesCross (S : Shp) : Option Bool → Option Bool → List Nat → Bool
  | _, _, [] => false
  | flagSecond, flagFirst, event :: rest =>
    let leftEvent := S.lin.toLeft event
    if S.kind leftEvent = .none then
      let isInside := S.other.getD (leftEvent / 2) false
      if S.lin.leftFirst leftEvent then
        match flagFirst with
        | none => S.hasEdgesCross flagSecond (some isInside) rest
        | some previous => if previous ≠ isInside then true else S.hasEdgesCross flagSecond flagFirst rest
      else
        match flagSecond with
        | none => S.hasEdgesCross (some isInside) flagFirst rest
        | some previous => if previous ≠ isInside then true else S.hasEdgesCross flagSecond flagFirst rest
    else S.hasEdgesCross flagSecond flagFirst rest

end Shp

/-- `rene/_relating/shaped.py` 634-674: the fields of `class RelationState`; `ok` records the `assert`s of lines
588 and 624-627. -/
structure ShapedState where
  boundariesIntersect : Bool := false
  firstBoundaryIntersectsSecondInterior : Bool := false
  firstIsSubset : Bool
  hasContinuousIntersection : Bool := false
  secondBoundaryIntersectsFirstInterior : Bool := false
  secondIsSubset : Bool
  ok : Bool := true
  deriving DecidableEq, Repr

namespace ShapedState

/-- `rene/_relating/shaped.py` 574-586, 606-622: an event of the kind `INSIDE`. -/
def inside (state : ShapedState) (isFirst : Bool) : ShapedState :=
  if isFirst then
    { state with hasContinuousIntersection := true, firstBoundaryIntersectsSecondInterior := true,
                 secondIsSubset := false }
  else
    { state with hasContinuousIntersection := true, secondBoundaryIntersectsFirstInterior := true,
                 firstIsSubset := false }

/-- `rene/_relating/shaped.py` 589-593, 628-632: an event of the kind `OUTSIDE` or `COMMON_POLYLINE_SEGMENT`. -/
def outside (state : ShapedState) (isFirst : Bool) : ShapedState :=
  if isFirst then { state with firstIsSubset := false } else { state with secondIsSubset := false }

/-- `rene/_relating/shaped.py` 601-632: the body of the loop of `update`. -/
def updateEvent (S : Shp) (state : ShapedState) (event : Nat) : ShapedState :=
  match S.classify event with
  | .commonRegionEdge => { state with hasContinuousIntersection := true }
  | .inside => state.inside (S.lin.isFirst event)
  | .outside => state.outside (S.lin.isFirst event)
  | .commonPolylineSegment => state.outside (S.lin.isFirst event)

/-- `rene/_relating/shaped.py` 563-632: `update`. -/
def update (S : Shp) (state : ShapedState) (sameStartEvents : List Nat) : ShapedState :=
  if allSame (sameStartEvents.map S.lin.isFirst) then
    match sameStartEvents with
    | [] => state
    | event :: _ =>
      match S.classify event with
      | .inside => state.inside (S.lin.isFirst event)
      | .outside => state.outside (S.lin.isFirst event)
      | _ => { state with ok := false }
  else if S.hasEdgesCross none none sameStartEvents then
    { state with hasContinuousIntersection := true, firstIsSubset := false, secondIsSubset := false }
  else sameStartEvents.foldl (updateEvent S) { state with boundariesIntersect := true }

/-- `rene/_relating/shaped.py` 152-186: the end of `to_relation`. -/
def relation (state : ShapedState) : Relation :=
  if state.boundariesIntersect then
    if state.firstIsSubset then
      if state.secondIsSubset then .equal
      else if state.firstBoundaryIntersectsSecondInterior then .enclosed else .component
    else if state.secondIsSubset then
      if state.secondBoundaryIntersectsFirstInterior then .encloses else .composite
    else if state.hasContinuousIntersection then .overlap else .touch
  else if state.secondIsSubset then .cover
  else if state.firstIsSubset then .within
  else if state.hasContinuousIntersection then .overlap else .disjoint

end ShapedState

namespace Shp

/-- `rene/_relating/shaped.py` 123-151: the loop of `to_relation` with the current group of events
(`same_start_events`) and `previous_start`; `fuel` bounds the number of iterations. -/
def relateLoop (minMaxX : ℚ) : Nat → Shp → ShapedState → Point → List Nat → Shp × ShapedState
  | 0, S, state, _, _ => (S, state)
  | fuel + 1, S, state, previousStart, group =>
    match S.lin.popEvent with
    | none => (S, state.update S group)
    | some event =>
      let start := S.lin.start event
      if start = previousStart then
        relateLoop minMaxX fuel (S.process .symmetricDifference event).1 state previousStart (group ++ [event])
      else
        let state := state.update S group
        if state.hasContinuousIntersection && !state.firstIsSubset && !state.secondIsSubset then
          ({ S with lin := { S.lin with ok := S.lin.ok && S.lin.queueOk } }, state)
        else if start.x > minMaxX then
          ({ S with lin := { S.lin with ok := S.lin.ok && S.lin.queueOk } }, state.outside (S.lin.isFirst event))
        else relateLoop minMaxX fuel (S.process .symmetricDifference event).1 state start [event]

/-- `rene/_relating/shaped.py` 103-186: `to_relation`. -/
def toRelation (S : Shp) (count : Nat) (firstIsSubset secondIsSubset : Bool) (minMaxX : ℚ) : Except Err Relation :=
  match S.lin.popEvent with
  | none => .error .indexError
  | some event =>
    let r := (S.process .symmetricDifference event).1.relateLoop minMaxX (Lin.fuel count)
      { firstIsSubset := firstIsSubset, secondIsSubset := secondIsSubset } (S.lin.start event) [event]
    if r.1.lin.ok && r.2.ok then .ok r.2.relation else .error .assertionError

end Shp

/-- `rene/_relating/utils.py` 10-22: `polygon_to_segments`. -/
def Polygon.relatedSegments (polygon : Polygon) (box : Box) : List Segment :=
  polygon.border.segments ++
    (polygon.holes.filter fun hole => !hole.boundingBox.disjointWith box).flatMap Contour.segments

/-- The call of `shaped.Operation.from_segments_iterables` and `to_relation`:
`rene/_relating/polygon.py` 61-74, 103-110, `rene/_relating/multipolygon.py` 80-97, 145-157. -/
def relateShaped (first second : List Polygon) (firstBox secondBox : Box) (firstIsSubset secondIsSubset : Bool)
    (minMaxX : ℚ) : Except Err Relation :=
  let firstSegments := first.flatMap fun p => p.relatedSegments secondBox
  let secondSegments := second.flatMap fun p => p.relatedSegments firstBox
  (Shp.init firstSegments secondSegments).toRelation (firstSegments.length + secondSegments.length)
    firstIsSubset secondIsSubset minMaxX

/-- `rene/_relating/polygon.py` 89-110: `relate_to_polygon`. -/
def relatePolygonToPolygon (first second : Polygon) : Except Err Relation :=
  if first.boundingBox.disjointWith second.boundingBox then .ok .disjoint else
  relateShaped [first] [second] first.boundingBox second.boundingBox true true
    (min first.boundingBox.maxX second.boundingBox.maxX)

/-- `rene/_relating/polygon.py` 29-74: `relate_to_multipolygon`. -/
def relatePolygonToMultipolygon (polygon : Polygon) (multipolygon : Multipolygon) : Except Err Relation :=
  let polygonBox := polygon.boundingBox
  if polygonBox.disjointWith multipolygon.boundingBox then .ok .disjoint else
  let candidates := multipolygon.polygons.filter fun p => !p.boundingBox.disjointWith polygonBox
  if candidates = [] then .ok .disjoint else
  let minMaxX := min polygonBox.maxX (listMax (candidates.map fun p => p.boundingBox.maxX))
  let intersecting := candidates.filter fun p => decide (p.boundingBox.minX ≤ minMaxX)
  if intersecting = [] then .error .assertionError else
  relateShaped [polygon] intersecting polygonBox multipolygon.boundingBox true
    (decide (intersecting.length = multipolygon.polygons.length)) minMaxX

/-- `rene/_relating/multipolygon.py` 112-157: `relate_to_polygon`. -/
def relateMultipolygonToPolygon (multipolygon : Multipolygon) (polygon : Polygon) : Except Err Relation :=
  let polygonBox := polygon.boundingBox
  if multipolygon.boundingBox.disjointWith polygonBox then .ok .disjoint else
  let candidates := multipolygon.polygons.filter fun p => !p.boundingBox.disjointWith polygonBox
  if candidates = [] then .ok .disjoint else
  let minMaxX := min polygonBox.maxX (listMax (candidates.map fun p => p.boundingBox.maxX))
  let intersecting := candidates.filter fun p => decide (p.boundingBox.minX ≤ minMaxX)
  if intersecting = [] then .error .assertionError else
  relateShaped intersecting [polygon] multipolygon.boundingBox polygonBox
    (decide (intersecting.length = multipolygon.polygons.length)) true minMaxX

/-- `rene/_relating/multipolygon.py` 29-97: `relate_to_multipolygon`. -/
def relateMultipolygonToMultipolygon (first second : Multipolygon) : Except Err Relation :=
  let firstBox := first.boundingBox
  let secondBox := second.boundingBox
  if firstBox.disjointWith secondBox then .ok .disjoint else
  let firstCandidates := first.polygons.filter fun p => !p.boundingBox.disjointWith secondBox
  if firstCandidates = [] then .ok .disjoint else
  let secondCandidates := second.polygons.filter fun p => !p.boundingBox.disjointWith firstBox
  if secondCandidates = [] then .ok .disjoint else
  let minMaxX := min (listMax (firstCandidates.map fun p => p.boundingBox.maxX))
    (listMax (secondCandidates.map fun p => p.boundingBox.maxX))
  let firstIntersecting := firstCandidates.filter fun p => decide (p.boundingBox.minX ≤ minMaxX)
  if firstIntersecting = [] then .ok .disjoint else
  let secondIntersecting := secondCandidates.filter fun p => decide (p.boundingBox.minX ≤ minMaxX)
  if secondIntersecting = [] then .ok .disjoint else
  relateShaped firstIntersecting secondIntersecting firstBox secondBox
    (decide (firstIntersecting.length = first.polygons.length))
    (decide (secondIntersecting.length = second.polygons.length)) minMaxX

end Rene
