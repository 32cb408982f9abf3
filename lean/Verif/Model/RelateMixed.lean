import Verif.Model.Mixed
import Verif.Model.RelateShaped

/-! Model of `rene/_relating/mixed.py` and of the `relate_to` functions of one linear and one polygonal geometry
which use it (`rene/_relating/segment.py`, `multisegmental.py`, `polygon.py`, `multipolygon.py`).

The events, the queue and the lookups in the sweep line are those of `Lin` (the helpers `_above`, `_add`, `_below`,
`_find`, `_pop`, `_push`, `_divide` and `to_event_*` have the bodies of those in `rene/_clipping/linear.py`,
`event.py`, `events_queue_key.py` and `sweep_line_key.py` are copies of those of `rene/_clipping`).

`_remove` of this file assigns the event to its key instead of deleting the key, so segments never leave the sweep
line.  Then the keys are not always consistently sorted, and a search tree may answer differently from the scan of a
list.  The field `sorted` records whether at each change of the sweep line the entries were strictly sorted by their
keys; when it stays `true` every sorted map answers as the list does. -/

namespace Rene

/-- `rene/_relating/mixed.py` 157-218: the fields of `class Operation`; `sorted` see above. -/
structure Rel where
  lin : Lin
  interior : List Bool
  other : List Bool
  sorted : Bool
  deriving Repr, DecidableEq

/-- Strictly sorted by a comparison: of each two entries the former is less and the latter is not. -/
def strictlySorted (lt : Nat → Nat → Bool) : List Nat → Bool
  | [] => true
  | x :: rest => (rest.all fun y => lt x y && !lt y x) && strictlySorted lt rest

namespace Rel

/-- `rene/_relating/mixed.py` 241-258: `_compute_left_event_fields`. -/
def computeFields (R : Rel) (event : Nat) (belowEvent : Option Nat) : Rel :=
  match belowEvent with
  | some below =>
    let value := if R.lin.leftFirst event = R.lin.leftFirst below then R.other.getD (below / 2) false
      else R.interior.getD (R.lin.sid below) false
    { R with other := R.other.set (event / 2) value }
  | none => R

/-- `rene/_relating/mixed.py` 366-389, 401-408 (and 290-294, 304-308): `_divide` followed by two `_push`es. -/
def divideByMidpoint (R : Rel) (event : Nat) (point : Point) : Rel :=
  { R with lin := R.lin.divideByMidpoint event point, other := R.other ++ [false] }

/-- `rene/_relating/mixed.py` 391-399: `_divide_event_by_mid_segment_event_endpoints`. -/
def divideByMidSegment (R : Rel) (event : Nat) (midStart midEnd : Point) : Rel :=
  (R.divideByMidpoint event midEnd).divideByMidpoint event midStart

/-- `rene/_relating/mixed.py` 410-419: `_divide_overlapping_events`. -/
def divideOverlapping (R : Rel) (minStartEvent maxStartEvent : Nat) (maxStart minEnd : Point) : Rel :=
  (R.divideByMidpoint maxStartEvent minEnd).divideByMidpoint minStartEvent maxStart

/-- `rene/_relating/mixed.py` 260-364: `_detect_intersection` without its `assert`s; the second component is the
returned value. -/
def detect (R : Rel) (belowEvent event : Nat) : Rel × Bool :=
  let eventStart := R.lin.start event
  let eventEnd := R.lin.end event
  let belowStart := R.lin.start belowEvent
  let belowEnd := R.lin.end belowEvent
  let startOrientation := orient belowEnd belowStart eventStart
  let endOrientation := orient belowEnd belowStart eventEnd
  if startOrientation = endOrientation then
    if startOrientation = .collinear then
      if eventStart = belowStart then
        (if eventEnd ≠ belowEnd then
            if eventEnd.ltB belowEnd then R.divideByMidpoint belowEvent eventEnd
            else R.divideByMidpoint event belowEnd
          else R, true)
      else if eventEnd = belowEnd then
        if eventStart.ltB belowStart then (R.divideByMidpoint event belowStart, false)
        else (R.divideByMidpoint belowEvent eventStart, false)
      else if belowStart.ltB eventStart && eventStart.ltB belowEnd then
        if eventEnd.ltB belowEnd then (R.divideByMidSegment belowEvent eventStart eventEnd, false)
        else (R.divideOverlapping belowEvent event eventStart belowEnd, false)
      else if eventStart.ltB belowStart && belowStart.ltB eventEnd then
        if belowEnd.ltB eventEnd then (R.divideByMidSegment event belowStart belowEnd, false)
        else (R.divideOverlapping event belowEvent belowStart eventEnd, false)
      else (R, false)
    else (R, false)
  else if startOrientation = .collinear then
    if belowStart.ltB eventStart && eventStart.ltB belowEnd then
      (R.divideByMidpoint belowEvent eventStart, false)
    else (R, false)
  else if endOrientation = .collinear then
    if belowStart.ltB eventEnd && eventEnd.ltB belowEnd then (R.divideByMidpoint belowEvent eventEnd, false)
    else (R, false)
  else
    let belowStartOrientation := orient eventStart eventEnd belowStart
    let belowEndOrientation := orient eventStart eventEnd belowEnd
    if belowStartOrientation = .collinear then
      if eventStart.ltB belowStart && belowStart.ltB eventEnd then
        (R.divideByMidpoint event belowStart, false)
      else (R, false)
    else if belowEndOrientation = .collinear then
      if eventStart.ltB belowEnd && belowEnd.ltB eventEnd then (R.divideByMidpoint event belowEnd, false)
      else (R, false)
    else if belowStartOrientation ≠ belowEndOrientation then
      let crossPoint := toSegmentsIntersection eventStart eventEnd belowStart belowEnd
      ((R.divideByMidpoint belowEvent crossPoint).divideByMidpoint event crossPoint, false)
    else (R, false)

/-- The entries of the sweep line are strictly sorted by their keys at present (not checked any more when an
`assert` has failed, because the run has ended then). -/
def checkSorted (R : Rel) : Rel :=
  { R with sorted := R.sorted && (!R.lin.ok || strictlySorted R.lin.sweepLt R.lin.sweepLine) }

/-- `rene/_relating/mixed.py` 260-364: `_detect_intersection`, recording failed `assert`s (lines 275-282, 345,
360-361, the same ones as in `rene/_clipping/linear.py`). -/
def detectIntersection (R : Rel) (belowEvent event : Nat) : Rel × Bool :=
  let r := R.detect belowEvent event
  (checkSorted { r.1 with lin := { r.1.lin with ok := r.1.lin.ok && R.lin.detectAsserts belowEvent event } }, r.2)

/-- `rene/_relating/mixed.py` 474-476: `_remove`: the key gets the value it has; nothing is removed. -/
def remove (R : Rel) (_event : Nat) : Rel := R

/-- `rene/_relating/mixed.py` 442-454: `_process_event` for a right event; the `assert` is that of line 445. -/
def processRight (R : Rel) (event : Nat) : Rel :=
  let oppositeEvent := R.lin.opp event
  let R := { R with lin := { R.lin with ok := R.lin.ok && isLeft oppositeEvent } }
  match R.lin.find oppositeEvent with
  | none => R
  | some equalEvent =>
    let aboveEvent := R.lin.above equalEvent
    let belowEvent := R.lin.below equalEvent
    let R := R.remove equalEvent
    match belowEvent, aboveEvent with
    | some b, some a => (R.detectIntersection b a).1
    | _, _ => R

/-- `rene/_relating/mixed.py` 459-463: the first `if` after `_compute_left_event_fields`. -/
def checkAbove (R : Rel) (event : Nat) (aboveEvent belowEvent : Option Nat) : Rel :=
  match aboveEvent with
  | some a =>
    let r := R.detectIntersection event a
    if r.2 then (r.1.computeFields event belowEvent).computeFields a (some event) else r.1
  | none => R

/-- `rene/_relating/mixed.py` 464-469: the second `if` after `_compute_left_event_fields`. -/
def checkBelow (R : Rel) (event : Nat) (belowEvent : Option Nat) : Rel :=
  match belowEvent with
  | some b =>
    let r := R.detectIntersection b event
    if r.2 then (r.1.computeFields b (r.1.lin.below b)).computeFields event (some b) else r.1
  | none => R

/-- `rene/_relating/mixed.py` 455-469: `_process_event` for a left event. -/
def processLeft (R : Rel) (event : Nat) : Rel :=
  match R.lin.find event with
  | some _ => R
  | none =>
    let R := checkSorted { R with lin := R.lin.add event }
    let aboveEvent := R.lin.above event
    let belowEvent := R.lin.below event
    let R := R.computeFields event belowEvent
    (R.checkAbove event aboveEvent belowEvent).checkBelow event belowEvent

/-- `rene/_relating/mixed.py` 439-469: `_pop` and `_process_event` of the popped event. -/
def process (R : Rel) (event : Nat) : Rel :=
  let R := { R with lin := { R.lin with queue := R.lin.queue.erase event, ok := R.lin.ok && R.lin.queueOk } }
  if isLeft event then R.processLeft event else R.processRight event

/-- `rene/_relating/mixed.py` 529-530, 562-565: `is_event_from_linear` of `LinearShapedOperation` (`linearFirst`) and of
`ShapedLinearOperation`. -/
def isLinear (linearFirst : Bool) (R : Rel) (event : Nat) : Bool :=
  if linearFirst then R.lin.isFirst event else !R.lin.isFirst event

/-- `rene/_relating/mixed.py` 62-63: `is_event_inside` (and `is_left_event_inside`, 54-55, of a left event; the
functions `is_event_outside` and `is_left_event_outside` are their negations). -/
def isInside (R : Rel) (event : Nat) : Bool := R.other.getD (R.lin.toLeft event / 2) false

end Rel

/-- `rene/_relating/mixed.py` 620-650: the fields of `class RelationState`; `ok` records the `assert` of line 585. -/
structure MixedState where
  linearIntersectsShapedBorder : Bool := false
  linearIntersectsShapedInterior : Bool := false
  linearIsSubsetOfShaped : Bool
  shapedBorderIsSubsetOfLinear : Bool := true
  ok : Bool := true
  deriving DecidableEq, Repr

namespace MixedState

/-- `rene/_relating/mixed.py` 101-111, 586-596, 599-612: a linear event which is inside or outside of the shaped
operand. -/
def linearEvent (state : MixedState) (isInside : Bool) : MixedState :=
  { state with
    linearIsSubsetOfShaped := state.linearIsSubsetOfShaped && isInside
    linearIntersectsShapedInterior := state.linearIntersectsShapedInterior || isInside }

/-- `rene/_relating/mixed.py` 112-113, 597-598, 613-618: a shaped event. -/
def shapedEvent (state : MixedState) : MixedState := { state with shapedBorderIsSubsetOfLinear := false }

/-- `rene/_relating/mixed.py` 577-598: the body of the loop over groups of left events with a common end. -/
def updateGroup (linearFirst : Bool) (R : Rel) (state : MixedState) (group : Point × List Nat) : MixedState :=
  match group.2 with
  | [] => state
  | [event] => if R.isLinear linearFirst event then state.linearEvent (R.isInside event) else state.shapedEvent
  | [_, _] => state
  | _ => { state with ok := false }

/-- `rene/_relating/mixed.py` 569-618: `update`. -/
def update (linearFirst : Bool) (R : Rel) (state : MixedState) (sameStartEvents : List Nat) : MixedState :=
  if !allSame (sameStartEvents.map R.lin.isFirst) then
    (groupby R.lin.end (sameStartEvents.filter isLeft)).foldl (updateGroup linearFirst R)
      { state with linearIntersectsShapedBorder := true }
  else match sameStartEvents with
    | [] => state
    | event :: _ =>
      if R.isLinear linearFirst event then state.linearEvent (R.isInside event) else state.shapedEvent

/-- `rene/_relating/mixed.py` 123-155: the end of `to_relation`. -/
def relation (state : MixedState) : Relation :=
  if state.shapedBorderIsSubsetOfLinear then
    if state.linearIsSubsetOfShaped then
      if state.linearIntersectsShapedInterior then .enclosed else .component
    else if state.linearIntersectsShapedInterior then .cross else .touch
  else if state.linearIsSubsetOfShaped then
    if state.linearIntersectsShapedInterior then
      if state.linearIntersectsShapedBorder then .enclosed else .within
    else .component
  else if state.linearIntersectsShapedInterior then .cross
  else if state.linearIntersectsShapedBorder then .touch else .disjoint

end MixedState

/-- What a run of the sweep gives: whether the sweep line was sorted throughout (see above), and the result. -/
structure MixedRun where
  sorted : Bool
  result : Except Err Relation
  deriving DecidableEq, Repr

namespace Rel

/-- `rene/_relating/mixed.py` 83-121: the loop of `to_relation` with the current group of events
(`same_start_events`) and `previous_start`; `fuel` bounds the number of iterations, `none` when it is over. -/
def relateLoop (linearFirst : Bool) (minMaxX : ℚ) : Nat → Rel → MixedState → Point → List Nat →
    Option (Rel × MixedState)
  | 0, _, _, _, _ => none
  | fuel + 1, R, state, previousStart, group =>
    match R.lin.popEvent with
    | none => some (R, state.update linearFirst R group)
    | some event =>
      let start := R.lin.start event
      if start = previousStart then
        relateLoop linearFirst minMaxX fuel (R.process event) state previousStart (group ++ [event])
      else
        let state := state.update linearFirst R group
        let stopped := { R with lin := { R.lin with ok := R.lin.ok && R.lin.queueOk } }
        if state.linearIntersectsShapedInterior && !state.linearIsSubsetOfShaped then some (stopped, state)
        else if start.x > minMaxX then
          some (stopped,
            if R.isLinear linearFirst event then state.linearEvent (R.isInside event) else state.shapedEvent)
        else relateLoop linearFirst minMaxX fuel (R.process event) state start [event]

/-- `rene/_relating/mixed.py` 74-155: `to_relation`; `none` when the fuel is over. -/
def toRelation (linearFirst : Bool) (R : Rel) (fuel : Nat) (linearIsSubset : Bool) (minMaxX : ℚ) :
    Option MixedRun :=
  match R.lin.popEvent with
  | none => some ⟨R.sorted, .error .indexError⟩
  | some event =>
    ((R.process event).relateLoop linearFirst minMaxX fuel { linearIsSubsetOfShaped := linearIsSubset }
      (R.lin.start event) [event]).map fun r =>
        ⟨r.1.sorted, if r.1.lin.ok && r.2.ok then .ok r.2.relation else .error .assertionError⟩

/-- `rene/_relating/mixed.py` 653-666: `_populate_with_shaped_segments`, the flags. -/
def shapedInterior (segments : List Segment) : List Bool := segments.map fun s => !s.end.ltB s.start

/-- `rene/_relating/mixed.py` 669-682: `_populate_with_linear_segments`, the flags (the endpoints are ordered in the
same way for linear and for shaped segments). -/
def linearInterior (segments : List Segment) : List Bool := List.replicate segments.length false

/-- `rene/_relating/mixed.py` 173-218, 501-527, 534-560: `from_segments_iterables` and `__init__` of
`LinearShapedOperation` (`linearFirst`) and of `ShapedLinearOperation`. -/
def init (linearFirst : Bool) (first second : List Segment) : Rel :=
  { lin := (Mix.init first second).lin
    interior := if linearFirst then linearInterior first ++ shapedInterior second
      else shapedInterior first ++ linearInterior second
    other := List.replicate (first.length + second.length) false
    sorted := true }

end Rel

/-- A call of `mixed.LinearShapedOperation.from_segments_iterables(linear, shaped, ...).to_relation(...)`. -/
def relateLinearShaped (linear shaped : List Segment) (linearIsSubset : Bool) (minMaxX : ℚ) (fuel : Nat) :
    Option MixedRun :=
  (Rel.init true linear shaped).toRelation true fuel linearIsSubset minMaxX

/-- A call of `mixed.ShapedLinearOperation.from_segments_iterables(shaped, linear, ...).to_relation(...)`. -/
def relateShapedLinear (shaped linear : List Segment) (linearIsSubset : Bool) (minMaxX : ℚ) (fuel : Nat) :
    Option MixedRun :=
  (Rel.init false shaped linear).toRelation false fuel linearIsSubset minMaxX

/-- An early exit with a relation. -/
def MixedRun.exit (relation : Relation) : Option MixedRun := some ⟨true, .ok relation⟩

/-- `rene/_relating/segment.py` 38-74: `relate_to_multipolygon`. -/
def relateSegmentToMultipolygon (segment : Segment) (multipolygon : Multipolygon) (fuel : Nat) : Option MixedRun :=
  let box := segment.boundingBox
  let candidates := multipolygon.polygons.filter fun p => !p.boundingBox.disjointWith box
  if candidates = [] then MixedRun.exit .disjoint else
  let minMaxX := min box.maxX (listMax (candidates.map fun p => p.boundingBox.maxX))
  let intersecting := candidates.filter fun p => decide (p.boundingBox.minX ≤ minMaxX)
  if intersecting = [] then some ⟨true, .error .assertionError⟩ else
  relateLinearShaped [segment] (intersecting.flatMap fun p => p.relatedSegments box) true minMaxX fuel

/-- `rene/_relating/segment.py` 77-104: `relate_to_multiregion`, without its `assert` (there are at least two
borders). -/
def relateSegmentToMultiregion (segment : Segment) (borders : List Contour) (fuel : Nat) : Option MixedRun :=
  let box := segment.boundingBox
  let candidates := borders.filter fun b => !b.boundingBox.disjointWith box
  if candidates = [] then MixedRun.exit .disjoint else
  let minMaxX := min box.maxX (listMax (candidates.map fun b => b.boundingBox.maxX))
  relateLinearShaped [segment] (borders.flatMap Contour.segments) true minMaxX fuel

/-- `rene/_relating/segment.py` 123-159: `relate_to_polygon`, for any number of holes
(see `Segment.relateToPolygon` for at most one). -/
def relateSegmentToPolygon (segment : Segment) (polygon : Polygon) (fuel : Nat) : Option MixedRun :=
  match polygon.holes with
  | [] => (segment.relateToPolygon polygon).map fun r => ⟨true, r⟩
  | [_] => (segment.relateToPolygon polygon).map fun r => ⟨true, r⟩
  | holes =>
    match relateToRegion segment.start segment.end polygon.border false with
    | .error e => some ⟨true, .error e⟩
    | .ok relation =>
      if relation = .within ∨ relation = .enclosed then
        (relateSegmentToMultiregion segment holes fuel).map fun run =>
          ⟨run.sorted, run.result.map fun
            | .disjoint => relation
            | .touch => .enclosed
            | .enclosed => .touch
            | .within => .disjoint
            | r => r⟩
      else some ⟨true, .ok relation⟩

/-- `rene/_relating/multisegmental.py` 59-71, 266-278, `polygon.py` 168-180, `multipolygon.py` 233-245: the relation
of the only intersecting segment turned into the one of the whole multisegmental. -/
def Relation.ofOneSegment : Relation → Relation
  | .component => .touch
  | .enclosed => .cross
  | .within => .cross
  | r => r

/-- The same for the result of a run. -/
def MixedRun.ofOneSegment (run : MixedRun) : MixedRun := ⟨run.sorted, run.result.map Relation.ofOneSegment⟩

/-- `rene/_relating/multisegmental.py` 238-308: `relate_to_polygon`; `Contour.relate_to(Polygon)` and
`Multisegment.relate_to(Polygon)` call it. -/
def relateMultisegmentalToPolygon (multisegmental : Multisegmental) (polygon : Polygon) (fuel : Nat) :
    Option MixedRun :=
  let box := multisegmental.boundingBox
  let polygonBox := polygon.boundingBox
  if box.disjointWith polygonBox then MixedRun.exit .disjoint else
  let intersecting := multisegmental.segments.filter fun s => !s.boundingBox.disjointWith polygonBox
  match intersecting with
  | [] => MixedRun.exit .disjoint
  | [segment] => (relateSegmentToPolygon segment polygon fuel).map MixedRun.ofOneSegment
  | _ =>
    let minMaxX := min (listMax (intersecting.map fun s => s.boundingBox.maxX)) polygonBox.maxX
    relateLinearShaped intersecting (polygon.relatedSegments box)
      (decide (intersecting.length = multisegmental.segments.length)) minMaxX fuel

/-- `rene/_relating/multisegmental.py` 30-114: `relate_to_multipolygon`; `Contour.relate_to(Multipolygon)` and
`Multisegment.relate_to(Multipolygon)` call it. -/
def relateMultisegmentalToMultipolygon (multisegmental : Multisegmental) (multipolygon : Multipolygon)
    (fuel : Nat) : Option MixedRun :=
  let box := multisegmental.boundingBox
  let multipolygonBox := multipolygon.boundingBox
  if box.disjointWith multipolygonBox then MixedRun.exit .disjoint else
  let candidates := multisegmental.segments.filter fun s => !s.boundingBox.disjointWith multipolygonBox
  match candidates with
  | [] => MixedRun.exit .disjoint
  | [segment] => (relateSegmentToMultipolygon segment multipolygon fuel).map MixedRun.ofOneSegment
  | _ =>
    let polygons := multipolygon.polygons.filter fun p => !p.boundingBox.disjointWith box
    if polygons = [] then MixedRun.exit .disjoint else
    let minMaxX := min (listMax (candidates.map fun s => s.boundingBox.maxX))
      (listMax (polygons.map fun p => p.boundingBox.maxX))
    let segments := candidates.filter fun s => decide (s.boundingBox.minX ≤ minMaxX)
    if segments = [] then some ⟨true, .error .assertionError⟩ else
    let intersecting := polygons.filter fun p => decide (p.boundingBox.minX ≤ minMaxX)
    if intersecting = [] then some ⟨true, .error .assertionError⟩ else
    relateLinearShaped segments (intersecting.flatMap fun p => p.relatedSegments box)
      (decide (candidates.length = multisegmental.segments.length)) minMaxX fuel

/-- `rene/_relating/polygon.py` 113-132: `relate_to_segment`. -/
def relatePolygonToSegment (polygon : Polygon) (segment : Segment) (fuel : Nat) : Option MixedRun :=
  let polygonBox := polygon.boundingBox
  let box := segment.boundingBox
  if polygonBox.disjointWith box then MixedRun.exit .disjoint else
  relateShapedLinear (polygon.relatedSegments box) [segment] true (min box.maxX polygonBox.maxX) fuel

/-- `rene/_relating/polygon.py` 141-200: `relate_to_multisegmental`; `Polygon.relate_to(Contour)` and
`Polygon.relate_to(Multisegment)` call it. -/
def relatePolygonToMultisegmental (polygon : Polygon) (multisegmental : Multisegmental) (fuel : Nat) :
    Option MixedRun :=
  let polygonBox := polygon.boundingBox
  let box := multisegmental.boundingBox
  if polygonBox.disjointWith box then MixedRun.exit .disjoint else
  let intersecting := multisegmental.segments.filter fun s => !s.boundingBox.disjointWith polygonBox
  match intersecting with
  | [] => MixedRun.exit .disjoint
  | [segment] => (relatePolygonToSegment polygon segment fuel).map MixedRun.ofOneSegment
  | _ =>
    let minMaxX := min polygonBox.maxX (listMax (intersecting.map fun s => s.boundingBox.maxX))
    relateShapedLinear (polygon.relatedSegments box) intersecting
      (decide (intersecting.length = multisegmental.segments.length)) minMaxX fuel

/-- `rene/_relating/multipolygon.py` 160-196: `relate_to_segment`. -/
def relateMultipolygonToSegment (multipolygon : Multipolygon) (segment : Segment) (fuel : Nat) : Option MixedRun :=
  let box := segment.boundingBox
  let candidates := multipolygon.polygons.filter fun p => !p.boundingBox.disjointWith box
  if candidates = [] then MixedRun.exit .disjoint else
  let minMaxX := min box.maxX (listMax (candidates.map fun p => p.boundingBox.maxX))
  let intersecting := candidates.filter fun p => decide (p.boundingBox.minX ≤ minMaxX)
  if intersecting = [] then some ⟨true, .error .assertionError⟩ else
  relateShapedLinear (intersecting.flatMap fun p => p.relatedSegments box) [segment] true minMaxX fuel

/-- `rene/_relating/multipolygon.py` 205-286: `relate_to_multisegmental`; `Multipolygon.relate_to(Contour)` and
`Multipolygon.relate_to(Multisegment)` call it.  `max` of no polygons raises `ValueError`. -/
def relateMultipolygonToMultisegmental (multipolygon : Multipolygon) (multisegmental : Multisegmental)
    (fuel : Nat) : Option MixedRun :=
  let multipolygonBox := multipolygon.boundingBox
  let box := multisegmental.boundingBox
  if multipolygonBox.disjointWith box then MixedRun.exit .disjoint else
  let candidates := multisegmental.segments.filter fun s => !s.boundingBox.disjointWith multipolygonBox
  match candidates with
  | [] => MixedRun.exit .disjoint
  | [segment] => (relateMultipolygonToSegment multipolygon segment fuel).map MixedRun.ofOneSegment
  | _ =>
    let polygons := multipolygon.polygons.filter fun p => !p.boundingBox.disjointWith box
    if polygons = [] then some ⟨true, .error .valueError⟩ else
    let minMaxX := min (listMax (polygons.map fun p => p.boundingBox.maxX))
      (listMax (candidates.map fun s => s.boundingBox.maxX))
    let intersecting := polygons.filter fun p => decide (p.boundingBox.minX ≤ minMaxX)
    if intersecting = [] then some ⟨true, .error .assertionError⟩ else
    let segments := candidates.filter fun s => decide (s.boundingBox.minX ≤ minMaxX)
    if segments = [] then some ⟨true, .error .assertionError⟩ else
    relateShapedLinear (intersecting.flatMap fun p => p.relatedSegments box) segments
      (decide (candidates.length = multisegmental.segments.length)) minMaxX fuel

end Rene
