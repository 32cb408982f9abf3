import Verif.Model.Linear
import Verif.Model.ContourOps

/-! Model of the sweep engine `rene/_clipping/mixed.py` (one linear and one shaped operand) and of the
intersections and differences computed with it.

The events, the queue and the sweep line are those of `Lin` (`rene/_clipping/linear.py` and `mixed.py` share
`event.py`, `events_queue_key.py` and `sweep_line_key.py`; the helpers `_above`, `_add`, `_below`, `_find`,
`_remove`, `_pop`, `_push` and `to_event_*` have the same bodies in both files), with the same conventions
about containers and `assert`s. -/

namespace Rene

/-- `rene/_clipping/mixed.py` 89-136: the fields of `class Operation`; the lists are indexed by segment
(`interior`) or by the position of a left event (`left_event_to_position`, half of the event). -/
structure Mix where
  lin : Lin
  interior : List Bool
  other : List Bool
  fromResult : List Bool
  overlap : List Bool
  deriving Repr, DecidableEq

/-- The subclasses of `mixed.Operation`. -/
inductive MixOp where
  | linearShapedDifference | linearShapedIntersection | shapedLinearIntersection
  deriving DecidableEq, Repr

namespace Mix

/-- `rene/_clipping/mixed.py` 453-458: `_is_left_event_outside`. -/
def isOutside (M : Mix) (event : Nat) : Bool :=
  !M.other.getD (event / 2) false && !M.overlap.getD (event / 2) false

end Mix

/-- `_detect_if_left_event_from_result` of the subclasses: `rene/_clipping/difference.py` 45-49,
`intersection.py` 40-44 and 47-51. -/
def MixOp.detects (op : MixOp) (M : Mix) (event : Nat) : Bool :=
  match op with
  | .linearShapedDifference => M.lin.leftFirst event && M.isOutside event
  | .linearShapedIntersection => M.lin.leftFirst event && !M.isOutside event
  | .shapedLinearIntersection => !M.lin.leftFirst event && !M.isOutside event

namespace Mix

/-- `rene/_clipping/mixed.py` 205-223: `_compute_left_event_fields`. -/
def computeFields (op : MixOp) (M : Mix) (event : Nat) (belowEvent : Option Nat) : Mix :=
  let M := match belowEvent with
    | some below =>
      let value := if M.lin.leftFirst event = M.lin.leftFirst below then M.other.getD (below / 2) false
        else M.interior.getD (M.lin.sid below) false
      { M with other := M.other.set (event / 2) value }
    | none => M
  { M with fromResult := M.fromResult.set (event / 2) (op.detects M event) }

/-- `rene/_clipping/mixed.py` 335-360, 372-379 (and 256-260, 274-278): `_divide` followed by two `_push`es. -/
def divideByMidpoint (M : Mix) (event : Nat) (point : Point) : Mix :=
  { M with
    lin := M.lin.divideByMidpoint event point
    other := M.other ++ [false]
    fromResult := M.fromResult ++ [false]
    overlap := M.overlap ++ [false] }

/-- `rene/_clipping/mixed.py` 362-370: `_divide_event_by_mid_segment_event_endpoints`. -/
def divideByMidSegment (M : Mix) (event : Nat) (midStart midEnd : Point) : Mix :=
  (M.divideByMidpoint event midEnd).divideByMidpoint event midStart

/-- `rene/_clipping/mixed.py` 381-390: `_divide_overlapping_events`. -/
def divideOverlapping (M : Mix) (minStartEvent maxStartEvent : Nat) (maxStart minEnd : Point) : Mix :=
  (M.divideByMidpoint maxStartEvent minEnd).divideByMidpoint minStartEvent maxStart

/-- `rene/_clipping/mixed.py` 261-264: both events are marked as overlapping. -/
def markOverlap (M : Mix) (belowEvent event : Nat) : Mix :=
  { M with overlap := (M.overlap.set (belowEvent / 2) true).set (event / 2) true }

/-- `rene/_clipping/mixed.py` 225-333: `_detect_intersection` without its `assert`s; the second component is
the returned value. -/
def detect (M : Mix) (belowEvent event : Nat) : Mix × Bool :=
  let eventStart := M.lin.start event
  let eventEnd := M.lin.end event
  let belowStart := M.lin.start belowEvent
  let belowEnd := M.lin.end belowEvent
  let startOrientation := orient belowEnd belowStart eventStart
  let endOrientation := orient belowEnd belowStart eventEnd
  if startOrientation = endOrientation then
    if startOrientation = .collinear then
      if eventStart = belowStart then
        let M := if eventEnd ≠ belowEnd then
            if eventEnd.ltB belowEnd then M.divideByMidpoint belowEvent eventEnd
            else M.divideByMidpoint event belowEnd
          else M
        (M.markOverlap belowEvent event, true)
      else if eventEnd = belowEnd then
        if eventStart.ltB belowStart then (M.divideByMidpoint event belowStart, false)
        else (M.divideByMidpoint belowEvent eventStart, false)
      else if belowStart.ltB eventStart && eventStart.ltB belowEnd then
        if eventEnd.ltB belowEnd then (M.divideByMidSegment belowEvent eventStart eventEnd, false)
        else (M.divideOverlapping belowEvent event eventStart belowEnd, false)
      else if eventStart.ltB belowStart && belowStart.ltB eventEnd then
        if belowEnd.ltB eventEnd then (M.divideByMidSegment event belowStart belowEnd, false)
        else (M.divideOverlapping event belowEvent belowStart eventEnd, false)
      else (M, false)
    else (M, false)
  else if startOrientation = .collinear then
    if belowStart.ltB eventStart && eventStart.ltB belowEnd then
      (M.divideByMidpoint belowEvent eventStart, false)
    else (M, false)
  else if endOrientation = .collinear then
    if belowStart.ltB eventEnd && eventEnd.ltB belowEnd then (M.divideByMidpoint belowEvent eventEnd, false)
    else (M, false)
  else
    let belowStartOrientation := orient eventStart eventEnd belowStart
    let belowEndOrientation := orient eventStart eventEnd belowEnd
    if belowStartOrientation = .collinear then
      if eventStart.ltB belowStart && belowStart.ltB eventEnd then
        (M.divideByMidpoint event belowStart, false)
      else (M, false)
    else if belowEndOrientation = .collinear then
      if eventStart.ltB belowEnd && belowEnd.ltB eventEnd then (M.divideByMidpoint event belowEnd, false)
      else (M, false)
    else if belowStartOrientation ≠ belowEndOrientation then
      let crossPoint := toSegmentsIntersection eventStart eventEnd belowStart belowEnd
      ((M.divideByMidpoint belowEvent crossPoint).divideByMidpoint event crossPoint, false)
    else (M, false)

/-- `rene/_clipping/mixed.py` 225-333: `_detect_intersection`, recording failed `assert`s (the same ones, on
lines 240-247, 315, 330-331, as in `linear.py`). -/
def detectIntersection (M : Mix) (belowEvent event : Nat) : Mix × Bool :=
  let r := M.detect belowEvent event
  ({ r.1 with lin := { r.1.lin with ok := r.1.lin.ok && M.lin.detectAsserts belowEvent event } }, r.2)

/-- `rene/_clipping/mixed.py` 144-156: the body of `__iter__` after `_pop` for a right event, always
followed by `yield event`; the `assert` is that of line 146. -/
def processRight (M : Mix) (event : Nat) : Mix :=
  let oppositeEvent := M.lin.opp event
  let M := { M with lin := { M.lin with ok := M.lin.ok && isLeft oppositeEvent } }
  match M.lin.find oppositeEvent with
  | none => M
  | some equalEvent =>
    let aboveEvent := M.lin.above equalEvent
    let belowEvent := M.lin.below equalEvent
    let M := { M with lin := M.lin.remove equalEvent }
    match belowEvent, aboveEvent with
    | some b, some a => (M.detectIntersection b a).1
    | _, _ => M

/-- `rene/_clipping/mixed.py` 164-177: what follows `_compute_left_event_fields` on line 163, first `if`. -/
def checkAbove (op : MixOp) (M : Mix) (event : Nat) (aboveEvent belowEvent : Option Nat) : Mix :=
  match aboveEvent with
  | some a =>
    let r := M.detectIntersection event a
    if r.2 then (r.1.computeFields op event belowEvent).computeFields op a (some event) else r.1
  | none => M

/-- `rene/_clipping/mixed.py` 164-177: what follows `_compute_left_event_fields` on line 163, second `if`. -/
def checkBelow (op : MixOp) (M : Mix) (event : Nat) (belowEvent : Option Nat) : Mix :=
  match belowEvent with
  | some b =>
    let r := M.detectIntersection b event
    if r.2 then (r.1.computeFields op b (r.1.lin.below b)).computeFields op event (some b) else r.1
  | none => M

/-- `rene/_clipping/mixed.py` 157-178: the body of `__iter__` after `_pop` for a left event; the second
component tells whether the event is yielded. -/
def processLeft (op : MixOp) (M : Mix) (event : Nat) : Mix × Bool :=
  match M.lin.find event with
  | some _ => (M, false)
  | none =>
    let M := { M with lin := M.lin.add event }
    let aboveEvent := M.lin.above event
    let belowEvent := M.lin.below event
    let M := M.computeFields op event belowEvent
    let M := M.checkAbove op event aboveEvent belowEvent
    (M.checkBelow op event belowEvent, true)

/-- `rene/_clipping/mixed.py` 141-178: one iteration of `__iter__` for the popped event. -/
def process (op : MixOp) (M : Mix) (event : Nat) : Mix × Bool :=
  let M := { M with lin := { M.lin with queue := M.lin.queue.erase event, ok := M.lin.ok && M.lin.queueOk } }
  if isLeft event then M.processLeft op event else (M.processRight event, true)

/-- `rene/_clipping/mixed.py` 141-178 together with the `for event in operation` loops of its consumers
(`rene/_clipping/intersection.py` 695-700 and the like, which append left events, `difference.py` 688-692 and
the like, which append all events).  `fuel` bounds the number of iterations, see `Lin.fuel`. -/
def loop (op : MixOp) (stop : Point → Bool) (wanted : Nat → Bool) : Nat → Mix → List Nat → Mix × List Nat
  | 0, M, events => (M, events)
  | fuel + 1, M, events =>
    match M.lin.popEvent with
    | none => (M, events)
    | some event =>
      let r := M.process op event
      if r.2 then
        if stop (r.1.lin.start event) then (r.1, events)
        else loop op stop wanted fuel r.1 (if wanted event then events ++ [event] else events)
      else loop op stop wanted fuel r.1 events

/-- `rene/_clipping/mixed.py` 521-534: `_populate_with_segments`, the flags. -/
def segmentsInterior (segments : List Segment) : List Bool :=
  segments.map fun s => !s.start.gtB s.end

/-- `rene/_clipping/mixed.py` 521-534: `_populate_with_segments`, the endpoints. -/
def segmentsEndpoints (segments : List Segment) : List Point :=
  segments.flatMap fun s => if s.start.gtB s.end then [s.end, s.start] else [s.start, s.end]

/-- `rene/_clipping/mixed.py` 28-51, 89-136: `from_segments_iterables` and `__init__`. -/
def init (first second : List Segment) : Mix :=
  let endpoints := segmentsEndpoints first ++ segmentsEndpoints second
  let count := first.length + second.length
  let S : Lin :=
    { firstCount := first.length
      endpoints := endpoints
      opposites := (List.range (2 * count)).map fun i => i / 2 * 2 + (if i % 2 = 0 then 1 else 0)
      segmentsIds := List.range count
      queue := List.range (2 * count)
      sweepLine := []
      ok := true }
  { lin := { S with ok := S.queueOk }
    interior := segmentsInterior first ++ segmentsInterior second
    other := List.replicate count false
    fromResult := List.replicate count false
    overlap := List.replicate count false }

/-- `rene/_clipping/mixed.py` 443-446: `_is_event_from_result`. -/
def isFromResult (M : Mix) (event : Nat) : Bool := M.fromResult.getD (M.lin.toLeft event / 2) false

/-- `rene/_clipping/mixed.py` 53-63: `reduce_events`. -/
def reduceEvents (M : Mix) (events : List Nat) : List Segment :=
  (events.filter M.isFromResult).map fun event => ⟨M.lin.start event, M.lin.end event⟩

end Mix

/-- Running an operation: `from_segments_iterables`, the loop over the events and `reduce_events`. -/
def MixOp.run (op : MixOp) (stop : Point → Bool) (wanted : Nat → Bool) (first second : List Segment) :
    List Segment :=
  let r := (Mix.init first second).loop op stop wanted (Lin.fuel (first.length + second.length)) []
  r.1.reduceEvents r.2

/-- `rene/_utils.py` 319-333: `polygon_to_correctly_oriented_segments`. -/
def Polygon.correctlyOrientedSegments (p : Polygon) : List Segment :=
  toOrientedSegments p.border.vertices .counterclockwise ++
    p.holes.flatMap fun hole => toOrientedSegments hole.vertices .clockwise

/-- `rene/_clipping/intersection.py` 1169-1218: `intersect_segment_with_polygon`. -/
def intersectSegmentWithPolygon (first : Segment) (second : Polygon) : Except Err Geom :=
  let firstBox := first.boundingBox
  let secondBox := second.boundingBox
  if doBoxesHaveNoCommonContinuum firstBox secondBox then .ok .empty else
  let maxMinX := max firstBox.minX secondBox.minX
  let minMaxX := min firstBox.maxX secondBox.maxX
  collectMaybeEmptySegments (MixOp.linearShapedIntersection.run (fun p => decide (p.x > minMaxX)) isLeft
    [first] (second.correctlyOrientedSegments.filter fun s => s.meetsRange maxMinX minMaxX))

/-- `rene/_clipping/intersection.py` 973-1022: `intersect_polygon_with_segment`. -/
def intersectPolygonWithSegment (first : Polygon) (second : Segment) : Except Err Geom :=
  let firstBox := first.boundingBox
  let secondBox := second.boundingBox
  if doBoxesHaveNoCommonContinuum firstBox secondBox then .ok .empty else
  let maxMinX := max firstBox.minX secondBox.minX
  let minMaxX := min firstBox.maxX secondBox.maxX
  collectMaybeEmptySegments (MixOp.shapedLinearIntersection.run (fun p => decide (p.x > minMaxX)) isLeft
    (first.correctlyOrientedSegments.filter fun s => s.meetsRange maxMinX minMaxX) [second])

/-- `rene/_clipping/intersection.py` 626-705: `intersect_multisegmental_with_polygon`. -/
def intersectMultisegmentalWithPolygon (first : Multisegmental) (second : Polygon) : Except Err Geom :=
  let firstBox := first.boundingBox
  let secondBox := second.boundingBox
  if doBoxesHaveNoCommonContinuum firstBox secondBox then .ok .empty else
  let firstCommon := first.segments.filter fun s => doBoxesHaveCommonContinuum s.boundingBox secondBox
  if firstCommon = [] then .ok .empty else
  let maxMinX := max (listMin (firstCommon.map fun s => s.boundingBox.minX)) secondBox.minX
  let minMaxX := min (listMax (firstCommon.map fun s => s.boundingBox.maxX)) secondBox.maxX
  collectMaybeEmptySegments (MixOp.linearShapedIntersection.run (fun p => decide (p.x > minMaxX)) isLeft
    (firstCommon.filter fun s => s.meetsRange maxMinX minMaxX)
    (second.correctlyOrientedSegments.filter fun s => s.meetsRange maxMinX minMaxX))

/-- `rene/_clipping/intersection.py` 831-910: `intersect_polygon_with_multisegmental`. -/
def intersectPolygonWithMultisegmental (first : Polygon) (second : Multisegmental) : Except Err Geom :=
  let firstBox := first.boundingBox
  let secondBox := second.boundingBox
  if doBoxesHaveNoCommonContinuum firstBox secondBox then .ok .empty else
  let secondCommon := second.segments.filter fun s => doBoxesHaveCommonContinuum s.boundingBox firstBox
  if secondCommon = [] then .ok .empty else
  let maxMinX := max firstBox.minX (listMin (secondCommon.map fun s => s.boundingBox.minX))
  let minMaxX := min firstBox.maxX (listMax (secondCommon.map fun s => s.boundingBox.maxX))
  collectMaybeEmptySegments (MixOp.shapedLinearIntersection.run (fun p => decide (p.x > minMaxX)) isLeft
    (first.correctlyOrientedSegments.filter fun s => s.meetsRange maxMinX minMaxX)
    (secondCommon.filter fun s => s.meetsRange maxMinX minMaxX))

/-- `rene/_clipping/intersection.py` 1054-1127: `intersect_segment_with_multipolygon`. -/
def intersectSegmentWithMultipolygon (first : Segment) (second : Multipolygon) : Except Err Geom :=
  let firstBox := first.boundingBox
  let secondBox := second.boundingBox
  if doBoxesHaveNoCommonContinuum firstBox secondBox then .ok .empty else
  let secondCommon := second.polygons.filter fun p => doBoxesHaveCommonContinuum p.boundingBox firstBox
  if secondCommon = [] then .ok .empty else
  let maxMinX := max firstBox.minX (listMin (secondCommon.map fun p => p.boundingBox.minX))
  let minMaxX := min firstBox.maxX (listMax (secondCommon.map fun p => p.boundingBox.maxX))
  collectMaybeEmptySegments (MixOp.linearShapedIntersection.run (fun p => decide (p.x > minMaxX)) isLeft
    [first]
    ((secondCommon.flatMap Polygon.correctlyOrientedSegments).filter fun s => s.meetsRange maxMinX minMaxX))

/-- `rene/_clipping/intersection.py` 353-426: `intersect_multipolygon_with_segment`. -/
def intersectMultipolygonWithSegment (first : Multipolygon) (second : Segment) : Except Err Geom :=
  let firstBox := first.boundingBox
  let secondBox := second.boundingBox
  if doBoxesHaveNoCommonContinuum firstBox secondBox then .ok .empty else
  let firstCommon := first.polygons.filter fun p => doBoxesHaveCommonContinuum p.boundingBox secondBox
  if firstCommon = [] then .ok .empty else
  let maxMinX := max (listMin (firstCommon.map fun p => p.boundingBox.minX)) secondBox.minX
  let minMaxX := min (listMax (firstCommon.map fun p => p.boundingBox.maxX)) secondBox.maxX
  collectMaybeEmptySegments (MixOp.shapedLinearIntersection.run (fun p => decide (p.x > minMaxX)) isLeft
    ((firstCommon.flatMap Polygon.correctlyOrientedSegments).filter fun s => s.meetsRange maxMinX minMaxX)
    [second])

/-- `rene/_clipping/intersection.py` 429-526: `intersect_multisegmental_with_multipolygon`. -/
def intersectMultisegmentalWithMultipolygon (first : Multisegmental) (second : Multipolygon) :
    Except Err Geom :=
  let firstBox := first.boundingBox
  let secondBox := second.boundingBox
  if doBoxesHaveNoCommonContinuum firstBox secondBox then .ok .empty else
  let firstCommon := first.segments.filter fun s => doBoxesHaveCommonContinuum s.boundingBox secondBox
  if firstCommon = [] then .ok .empty else
  let secondCommon := second.polygons.filter fun p => doBoxesHaveCommonContinuum p.boundingBox firstBox
  if secondCommon = [] then .ok .empty else
  let maxMinX := max (listMin (firstCommon.map fun s => s.boundingBox.minX))
    (listMin (secondCommon.map fun p => p.boundingBox.minX))
  let minMaxX := min (listMax (firstCommon.map fun s => s.boundingBox.maxX))
    (listMax (secondCommon.map fun p => p.boundingBox.maxX))
  collectMaybeEmptySegments (MixOp.linearShapedIntersection.run (fun p => decide (p.x > minMaxX)) isLeft
    (firstCommon.filter fun s => s.meetsRange maxMinX minMaxX)
    ((secondCommon.flatMap Polygon.correctlyOrientedSegments).filter fun s => s.meetsRange maxMinX minMaxX))

/-- `rene/_clipping/intersection.py` 169-266: `intersect_multipolygon_with_multisegmental`. -/
def intersectMultipolygonWithMultisegmental (first : Multipolygon) (second : Multisegmental) :
    Except Err Geom :=
  let firstBox := first.boundingBox
  let secondBox := second.boundingBox
  if doBoxesHaveNoCommonContinuum firstBox secondBox then .ok .empty else
  let firstCommon := first.polygons.filter fun p => doBoxesHaveCommonContinuum p.boundingBox secondBox
  if firstCommon = [] then .ok .empty else
  let secondCommon := second.segments.filter fun s => doBoxesHaveCommonContinuum s.boundingBox firstBox
  if secondCommon = [] then .ok .empty else
  let maxMinX := max (listMin (firstCommon.map fun p => p.boundingBox.minX))
    (listMin (secondCommon.map fun s => s.boundingBox.minX))
  let minMaxX := min (listMax (firstCommon.map fun p => p.boundingBox.maxX))
    (listMax (secondCommon.map fun s => s.boundingBox.maxX))
  collectMaybeEmptySegments (MixOp.shapedLinearIntersection.run (fun p => decide (p.x > minMaxX)) isLeft
    ((firstCommon.flatMap Polygon.correctlyOrientedSegments).filter fun s => s.meetsRange maxMinX minMaxX)
    (secondCommon.filter fun s => s.meetsRange maxMinX minMaxX))

/-- `rene/_clipping/difference.py` 628-700: `subtract_polygon_from_multisegmental`. -/
def subtractPolygonFromMultisegmental (minuend : Multisegmental) (subtrahend : Polygon) :
    Except Err Geom :=
  let minuendBox := minuend.boundingBox
  let subtrahendBox := subtrahend.boundingBox
  if doBoxesHaveNoCommonArea minuendBox subtrahendBox then .ok minuend.toGeom else
  let minuendCommon := minuend.segments.filter fun s =>
    doBoxesHaveCommonContinuum s.boundingBox subtrahendBox
  if minuendCommon = [] then .ok minuend.toGeom else
  let maxX := listMax (minuendCommon.map fun s => s.boundingBox.maxX)
  let minX := listMin (minuendCommon.map fun s => s.boundingBox.minX)
  collectMaybeEmptySegments (MixOp.linearShapedDifference.run (fun p => decide (p.x > maxX)) (fun _ => true)
      minuendCommon (subtrahend.correctlyOrientedSegments.filter fun s => s.meetsRange minX maxX)
    ++ minuend.segments.filter fun s => !doBoxesHaveCommonContinuum s.boundingBox subtrahendBox)

/-- `rene/_clipping/difference.py` 162-250: `subtract_multipolygon_from_multisegmental`. -/
def subtractMultipolygonFromMultisegmental (minuend : Multisegmental) (subtrahend : Multipolygon) :
    Except Err Geom :=
  let minuendBox := minuend.boundingBox
  let subtrahendBox := subtrahend.boundingBox
  if doBoxesHaveNoCommonArea minuendBox subtrahendBox then .ok minuend.toGeom else
  let minuendCommon := minuend.segments.filter fun s =>
    doBoxesHaveCommonContinuum s.boundingBox subtrahendBox
  if minuendCommon = [] then .ok minuend.toGeom else
  let subtrahendCommon := subtrahend.polygons.filter fun p =>
    doBoxesHaveCommonContinuum p.boundingBox minuendBox
  if subtrahendCommon = [] then .ok minuend.toGeom else
  let maxX := listMax (minuendCommon.map fun s => s.boundingBox.maxX)
  let minX := listMin (minuendCommon.map fun s => s.boundingBox.minX)
  collectMaybeEmptySegments (MixOp.linearShapedDifference.run (fun p => decide (p.x > maxX)) (fun _ => true)
      minuendCommon
      ((subtrahendCommon.flatMap Polygon.correctlyOrientedSegments).filter fun s => s.meetsRange minX maxX)
    ++ minuend.segments.filter fun s => !doBoxesHaveCommonContinuum s.boundingBox subtrahendBox)

/-- `rene/_clipping/difference.py` 761-811: `subtract_polygon_from_segment` (not reached by an operator:
`Segment.__sub__` does not accept polygons). -/
def subtractPolygonFromSegment (minuend : Segment) (subtrahend : Polygon) : Except Err Geom :=
  let minuendBox := minuend.boundingBox
  if doBoxesHaveNoCommonArea minuendBox subtrahend.boundingBox then .ok (.segment minuend) else
  collectMaybeEmptySegments (MixOp.linearShapedDifference.run (fun p => decide (p.x > minuendBox.maxX))
    (fun _ => true) [minuend]
    (subtrahend.correctlyOrientedSegments.filter fun s => s.meetsRange minuendBox.minX minuendBox.maxX))

/-- `rene/_clipping/difference.py` 324-390: `subtract_multipolygon_from_segment` (not reached by an operator:
`Segment.__sub__` does not accept multipolygons). -/
def subtractMultipolygonFromSegment (minuend : Segment) (subtrahend : Multipolygon) : Except Err Geom :=
  let minuendBox := minuend.boundingBox
  if doBoxesHaveNoCommonArea minuendBox subtrahend.boundingBox then .ok (.segment minuend) else
  let subtrahendCommon := subtrahend.polygons.filter fun p =>
    doBoxesHaveCommonContinuum p.boundingBox minuendBox
  if subtrahendCommon = [] then .ok (.segment minuend) else
  collectMaybeEmptySegments (MixOp.linearShapedDifference.run (fun p => decide (p.x > minuendBox.maxX))
    (fun _ => true) [minuend]
    ((subtrahendCommon.flatMap Polygon.correctlyOrientedSegments).filter fun s =>
      s.meetsRange minuendBox.minX minuendBox.maxX))

end Rene
