import Verif.Model.Clipping

/-! Model of the sweep engine `rene/_clipping/linear.py` with `event.py`, `events_queue_key.py` and
`sweep_line_key.py`.

Representation.  Events are numbers, even ones are left, odd ones are right.  The external containers are
represented by lists: the priority queue by the list of its elements (`pop` scans for the least one), the
red-black map by the list of its values in key order (lookups scan the list).  A tree search gives the
same answers as the scan as long as the keys in the tree are strictly sorted and the searched key splits
them, which is part of what is proved (`C34_sweep_line_sorted`).  `assert` statements are collected in
the flag `ok`; the theorems show that it never becomes `false`.  Not recorded there: the type-like asserts
`is_event_left(event)` of the helpers (lines 155, 162, 166, 279, 331, 354) and the two of `_divide` about the
operand of the new events (lines 290-297), which share the segment id of the divided event. -/

namespace Rene

/-- `rene/_clipping/linear.py` 67-122: the fields of `class Operation`. -/
structure Lin where
  firstCount : Nat
  endpoints : List Point
  opposites : List Nat
  segmentsIds : List Nat
  queue : List Nat
  sweepLine : List Nat
  ok : Bool
  deriving Repr, DecidableEq

/-- `rene/_clipping/event.py` 10: `is_event_left`. -/
def isLeft (event : Nat) : Bool := event % 2 == 0

namespace Lin

/-- `rene/_clipping/linear.py` 61-62: `to_event_start` (indices are always in range). -/
def start (S : Lin) (event : Nat) : Point := S.endpoints.getD event ⟨0, 0⟩

/-- `rene/_clipping/linear.py` 64-65: `to_opposite_event` (indices are always in range). -/
def opp (S : Lin) (event : Nat) : Nat := S.opposites.getD event 0

/-- `rene/_clipping/linear.py` 58-59: `to_event_end`. -/
def «end» (S : Lin) (event : Nat) : Point := S.start (S.opp event)

/-- `rene/_clipping/linear.py` 344-345: `_left_event_to_segment_id`. -/
def sid (S : Lin) (event : Nat) : Nat := S.segmentsIds.getD (event / 2) 0

/-- `rene/_clipping/linear.py` 339-342: `_is_left_event_from_first_operand`. -/
def leftFirst (S : Lin) (event : Nat) : Bool := decide (S.sid event < S.firstCount)

/-- `rene/_clipping/linear.py` 362-363: `_to_left_event`. -/
def toLeft (S : Lin) (event : Nat) : Nat := if isLeft event then event else S.opp event

/-- `rene/_clipping/linear.py` 334-337: `_is_event_from_first_operand`. -/
def isFirst (S : Lin) (event : Nat) : Bool := S.leftFirst (S.toLeft event)

end Lin

/-- `rene/_clipping/events_queue_key.py` 47-89: `EventsQueueKey.__lt__` on events with the given start,
end, side and operand (for the `assert` of line 78 see `Lin.queueAssert`). -/
def queueKeyLt (start otherStart end_ otherEnd : Point) (left otherLeft first otherFirst : Bool) : Bool :=
  if start.x ≠ otherStart.x then decide (start.x < otherStart.x)
  else if start.y ≠ otherStart.y then decide (start.y < otherStart.y)
  else if left ≠ otherLeft then !left
  else
    let otherEndOrientation := orient start end_ otherEnd
    if otherEndOrientation = .collinear then otherFirst
    else decide (otherEndOrientation = if left then .counterclockwise else .clockwise)

/-- `rene/_clipping/sweep_line_key.py` 47-91: `SweepLineKey.__lt__` on segments with the given
endpoints and operands. -/
def sweepKeyLt (start end_ otherStart otherEnd : Point) (first otherFirst : Bool) : Bool :=
  let otherStartOrientation := orient start end_ otherStart
  let otherEndOrientation := orient start end_ otherEnd
  if otherStartOrientation = otherEndOrientation then
    if otherStartOrientation ≠ .collinear then decide (otherStartOrientation = .counterclockwise)
    else if first ≠ otherFirst then first
    else if start.y ≠ otherStart.y then decide (start.y < otherStart.y)
    else if start.x ≠ otherStart.x then decide (start.x < otherStart.x)
    else if end_.y ≠ otherEnd.y then decide (end_.y < otherEnd.y)
    else decide (end_.x < otherEnd.x)
  else
    let startOrientation := orient otherStart otherEnd start
    let endOrientation := orient otherStart otherEnd end_
    if startOrientation = endOrientation then decide (startOrientation = .clockwise)
    else if otherStartOrientation = .collinear then decide (otherEndOrientation = .counterclockwise)
    else if startOrientation = .collinear then decide (endOrientation = .clockwise)
    else if endOrientation = .collinear then decide (startOrientation = .clockwise)
    else decide (otherStartOrientation = .counterclockwise)

namespace Lin

/-- The queue key of an event (`rene/_clipping/linear.py` 111-121: the `key` of the priority queue; the
operand recorded in a key when it is pushed is the operand at any later time, because `divide` keeps it). -/
def queueLt (S : Lin) (event other : Nat) : Bool :=
  queueKeyLt (S.start event) (S.start other) (S.end event) (S.end other) (isLeft event) (isLeft other)
    (S.isFirst event) (S.isFirst other)

/-- `rene/_clipping/linear.py` 365-376: `_to_sweep_line_key`, the sweep line key of a left event. -/
def sweepLt (S : Lin) (event other : Nat) : Bool :=
  sweepKeyLt (S.start event) (S.end event) (S.start other) (S.end other) (S.leftFirst event)
    (S.leftFirst other)

/-- Least element of a non-empty list by a strict comparison. -/
def leastFrom (lt : Nat → Nat → Bool) (best : Nat) : List Nat → Nat
  | [] => best
  | x :: rest => leastFrom lt (if lt x best then x else best) rest

/-- `rene/_clipping/linear.py` 347-348: `_pop`: the least event of the queue. -/
def popEvent (S : Lin) : Option Nat :=
  match S.queue with
  | [] => none
  | x :: rest => some (leastFrom S.queueLt x rest)

/-- The `assert` of `EventsQueueKey.__lt__` (`rene/_clipping/events_queue_key.py` 76-79) for two events. -/
def queueAssert (S : Lin) (event other : Nat) : Bool :=
  !(decide (S.start event = S.start other) && decide (isLeft event = isLeft other) &&
    decide (orient (S.start event) (S.end event) (S.end other) = .collinear)) ||
    decide (S.isFirst event ≠ S.isFirst other)

/-- No comparison of two events of the queue fails the `assert`; the model checks this whenever the
priority queue compares keys, for all pairs of events, so for whatever pairs the heap compares. -/
def queueOk (S : Lin) : Bool :=
  S.queue.all fun event => S.queue.all fun other => decide (event = other) || S.queueAssert event other

/-- `rene/_clipping/linear.py` 350-351: `_push`. -/
def push (S : Lin) (event : Nat) : Lin :=
  let T := { S with queue := event :: S.queue }
  { T with ok := S.ok && T.queueOk }

/-- `rene/_clipping/linear.py` 330-332: `_find`. -/
def find (S : Lin) (event : Nat) : Option Nat :=
  S.sweepLine.find? fun x => !S.sweepLt x event && !S.sweepLt event x

/-- `rene/_clipping/linear.py` 154-159: `_above`: first entry with a greater key. -/
def above (S : Lin) (event : Nat) : Option Nat := S.sweepLine.find? fun x => S.sweepLt event x

/-- `rene/_clipping/linear.py` 165-170: `_below`: last entry with a lesser key. -/
def below (S : Lin) (event : Nat) : Option Nat := S.sweepLine.reverse.find? fun x => S.sweepLt x event

/-- `rene/_clipping/linear.py` 161-163: `_add`: insertion at the position given by the key. -/
def add (S : Lin) (event : Nat) : Lin :=
  { S with sweepLine := (S.sweepLine.takeWhile fun x => S.sweepLt x event) ++ event ::
      S.sweepLine.dropWhile fun x => S.sweepLt x event }

/-- `rene/_clipping/linear.py` 353-355: `_remove`: deletes the entry with an equal key. -/
def remove (S : Lin) (event : Nat) : Lin :=
  { S with sweepLine := S.sweepLine.eraseP fun x => !S.sweepLt x event && !S.sweepLt event x }

/-- `rene/_clipping/linear.py` 276-298: `_divide`; returns the new state, the new right event
(`mid_point_to_event_start_event`) and the new left event (`mid_point_to_event_end_event`). -/
def divide (S : Lin) (event : Nat) (midPoint : Point) : Lin × Nat × Nat :=
  let oppositeEvent := S.opp event
  let midToEnd := S.endpoints.length
  let midToStart := S.endpoints.length + 1
  ({ S with
      segmentsIds := S.segmentsIds ++ [S.sid event]
      endpoints := S.endpoints ++ [midPoint] ++ [midPoint]
      opposites := (((S.opposites ++ [oppositeEvent]).set oppositeEvent midToEnd) ++ [event]).set event
        midToStart },
    midToStart, midToEnd)

/-- `rene/_clipping/linear.py` 310-317: `_divide_event_by_midpoint` (and 204-208, 216-220, which inline
it). -/
def divideByMidpoint (S : Lin) (event : Nat) (point : Point) : Lin :=
  let r := S.divide event point
  (r.1.push r.2.1).push r.2.2

/-- `rene/_clipping/linear.py` 300-308: `_divide_event_by_mid_segment_event_endpoints`. -/
def divideByMidSegment (S : Lin) (event : Nat) (midStart midEnd : Point) : Lin :=
  (S.divideByMidpoint event midEnd).divideByMidpoint event midStart

/-- `rene/_clipping/linear.py` 319-328: `_divide_overlapping_events`. -/
def divideOverlapping (S : Lin) (minStartEvent maxStartEvent : Nat) (maxStart minEnd : Point) : Lin :=
  (S.divideByMidpoint maxStartEvent minEnd).divideByMidpoint minStartEvent maxStart

/-- `rene/_clipping/linear.py` 172-274: `_detect_intersection` without its `assert`s. -/
def detect (S : Lin) (belowEvent event : Nat) : Lin :=
  let eventStart := S.start event
  let eventEnd := S.end event
  let belowStart := S.start belowEvent
  let belowEnd := S.end belowEvent
  let startOrientation := orient belowEnd belowStart eventStart
  let endOrientation := orient belowEnd belowStart eventEnd
  if startOrientation = endOrientation then
    if startOrientation = .collinear then
      if eventStart = belowStart then
        if eventEnd ≠ belowEnd then
          if eventEnd.ltB belowEnd then S.divideByMidpoint belowEvent eventEnd
          else S.divideByMidpoint event belowEnd
        else S
      else if eventEnd = belowEnd then
        if eventStart.ltB belowStart then S.divideByMidpoint event belowStart
        else S.divideByMidpoint belowEvent eventStart
      else if belowStart.ltB eventStart && eventStart.ltB belowEnd then
        if eventEnd.ltB belowEnd then S.divideByMidSegment belowEvent eventStart eventEnd
        else S.divideOverlapping belowEvent event eventStart belowEnd
      else if eventStart.ltB belowStart && belowStart.ltB eventEnd then
        if belowEnd.ltB eventEnd then S.divideByMidSegment event belowStart belowEnd
        else S.divideOverlapping event belowEvent belowStart eventEnd
      else S
    else S
  else if startOrientation = .collinear then
    if belowStart.ltB eventStart && eventStart.ltB belowEnd then S.divideByMidpoint belowEvent eventStart
    else S
  else if endOrientation = .collinear then
    if belowStart.ltB eventEnd && eventEnd.ltB belowEnd then S.divideByMidpoint belowEvent eventEnd
    else S
  else
    let belowStartOrientation := orient eventStart eventEnd belowStart
    let belowEndOrientation := orient eventStart eventEnd belowEnd
    if belowStartOrientation = .collinear then
      if eventStart.ltB belowStart && belowStart.ltB eventEnd then S.divideByMidpoint event belowStart
      else S
    else if belowEndOrientation = .collinear then
      if eventStart.ltB belowEnd && belowEnd.ltB eventEnd then S.divideByMidpoint event belowEnd
      else S
    else if belowStartOrientation ≠ belowEndOrientation then
      let crossPoint := toSegmentsIntersection eventStart eventEnd belowStart belowEnd
      (S.divideByMidpoint belowEvent crossPoint).divideByMidpoint event crossPoint
    else S

/-- The `assert`s of `_detect_intersection` (`rene/_clipping/linear.py` 187-194, 256, 271-272). -/
def detectAsserts (S : Lin) (belowEvent event : Nat) : Bool :=
  let eventStart := S.start event
  let eventEnd := S.end event
  let belowStart := S.start belowEvent
  let belowEnd := S.end belowEvent
  let startOrientation := orient belowEnd belowStart eventStart
  let endOrientation := orient belowEnd belowStart eventEnd
  if startOrientation = endOrientation then
    if startOrientation = .collinear then
      decide (S.leftFirst belowEvent ≠ S.leftFirst event) || decide (eventEnd = belowStart)
        || decide (eventStart = belowEnd)
    else true
  else if startOrientation = .collinear then true
  else if endOrientation = .collinear then true
  else
    let belowStartOrientation := orient eventStart eventEnd belowStart
    let belowEndOrientation := orient eventStart eventEnd belowEnd
    if belowStartOrientation = .collinear then decide (belowEndOrientation ≠ .collinear)
    else if belowEndOrientation = .collinear then true
    else if belowStartOrientation ≠ belowEndOrientation then
      let crossPoint := toSegmentsIntersection eventStart eventEnd belowStart belowEnd
      eventStart.ltB crossPoint && crossPoint.ltB eventEnd && belowStart.ltB crossPoint
        && crossPoint.ltB belowEnd
    else true

/-- `rene/_clipping/linear.py` 172-274: `_detect_intersection`, recording failed `assert`s. -/
def detectIntersection (S : Lin) (belowEvent event : Nat) : Lin :=
  let T := S.detect belowEvent event
  { T with ok := T.ok && S.detectAsserts belowEvent event }

/-- `rene/_clipping/linear.py` 130-142: the body of `__iter__` after `_pop` for a right event; the `assert`
is that of line 132. -/
def processRight (S : Lin) (event : Nat) : Lin :=
  let oppositeEvent := S.opp event
  let S := { S with ok := S.ok && isLeft oppositeEvent }
  match S.find oppositeEvent with
  | none => S
  | some equalEvent =>
    let aboveEvent := S.above equalEvent
    let belowEvent := S.below equalEvent
    let S := S.remove equalEvent
    match belowEvent, aboveEvent with
    | some b, some a => S.detectIntersection b a
    | _, _ => S

/-- `rene/_clipping/linear.py` 143-151: the body of `__iter__` after `_pop` for a left event. -/
def processLeft (S : Lin) (event : Nat) : Lin :=
  match S.find event with
  | some _ => S
  | none =>
    let S := S.add event
    let aboveEvent := S.above event
    let belowEvent := S.below event
    let S := match aboveEvent with
      | some a => S.detectIntersection event a
      | none => S
    match belowEvent with
    | some b => S.detectIntersection b event
    | none => S

/-- `rene/_clipping/linear.py` 128-152: one iteration of `__iter__` for the popped event (the comparisons
made by the removal from the priority queue are checked here). -/
def process (S : Lin) (event : Nat) : Lin :=
  let S := { S with queue := S.queue.erase event, ok := S.ok && S.queueOk }
  if isLeft event then S.processLeft event else S.processRight event

/-- `rene/_clipping/linear.py` 127-152 together with its consumers: the `for event in operation` loops
(`rene/_clipping/intersection.py` 613-618, `difference.py` 454-459, 518-523; the comprehensions of
`union.py` 229-236, `symmetric_difference.py` 427-434, 487-494 and 559-566 are the same loop which never
stops).  Collects the opposites of the popped right events.  `fuel` bounds the number of iterations;
`C34_terminates` proves that `Lin.fuel` is always enough. -/
def loop (stop : Point → Bool) : Nat → Lin → List Nat → Lin × List Nat
  | 0, S, events => (S, events)
  | fuel + 1, S, events =>
    match S.popEvent with
    | none => (S, events)
    | some event =>
      let S := S.process event
      if stop (S.start event) then (S, events)
      else if isLeft event then loop stop fuel S events
      else loop stop fuel S (events ++ [S.opp event])

/-- `rene/_clipping/linear.py` 379-386: `_populate_with_segments`. -/
def segmentsEndpoints (segments : List Segment) : List Point :=
  segments.flatMap fun s => let p := toSortedPair s.start s.end; [p.1, p.2]

/-- `rene/_clipping/linear.py` 28-48, 81-122: `from_segments_iterables` and `__init__`. -/
def init (first second : List Segment) : Lin :=
  let endpoints := segmentsEndpoints first ++ segmentsEndpoints second
  let count := first.length + second.length
  let S : Lin :=
    { firstCount := first.length
      endpoints := endpoints
      opposites := (List.range (2 * count)).map fun i => i / 2 * 2 + (if i % 2 = 0 then 1 else 0)
      segmentsIds := List.range count
      queue := List.range (2 * count)
      sweepLine := []
      ok := true }
  { S with ok := S.queueOk }

/-- Number of iterations which is proved to be enough for `count` segments: `2 * count` initial events,
and two new events for each of the at most `count * (2 * count + count * count)` divisions. -/
def fuel (count : Nat) : Nat := 2 * count + 2 * (count * (2 * count + count * count)) + 1

/-- `rene/_clipping/linear.py` 357-360: `_to_event_endpoints`. -/
def endpointsOf (S : Lin) (event : Nat) : Point × Point := (S.start event, S.end event)

end Lin

/-- `itertools.groupby(events, key=...)`: maximal runs of consecutive events with equal keys. -/
def groupby {α : Type} (key : Nat → α) [DecidableEq α] : List Nat → List (α × List Nat)
  | [] => []
  | e :: rest =>
    match groupby key rest with
    | [] => [(key e, [e])]
    | (k, g) :: groups => if key e = k then (k, e :: g) :: groups else (key e, [e]) :: (k, g) :: groups

/-- The four operations. -/
inductive LinOp where
  | intersection | union | difference | symmetricDifference
  deriving DecidableEq, Repr

/-- Which groups of coincident subsegments are kept by `reduce_events`:
`rene/_clipping/intersection.py` 24-37 (`has_two_or_more_elements`), `union.py` 22-34 (all),
`difference.py` 26-42 (`all(... from first operand)`), `symmetric_difference.py` 23-36
(`not has_two_or_more_elements`). -/
def LinOp.keeps (op : LinOp) (S : Lin) (group : List Nat) : Bool :=
  match op with
  | .intersection => decide (2 ≤ group.length)
  | .union => true
  | .difference => group.all S.isFirst
  | .symmetricDifference => !decide (2 ≤ group.length)

/-- `reduce_events` of the four linear operations (lines as in `LinOp.keeps`). -/
def LinOp.reduceEvents (op : LinOp) (S : Lin) (events : List Nat) : List Segment :=
  ((groupby S.endpointsOf events).filter fun g => op.keeps S g.2).map fun g => ⟨g.1.1, g.1.2⟩

/-- Running an operation on two lists of segments: `from_segments_iterables`, the loop over the events
and `reduce_events`. -/
def LinOp.run (op : LinOp) (stop : Point → Bool) (first second : List Segment) : List Segment :=
  let r := (Lin.init first second).loop stop (Lin.fuel (first.length + second.length)) []
  op.reduceEvents r.1 r.2

/-- Python `max` of a non-empty list of scalars (`0` for an empty list, never used). -/
def listMax : List ℚ → ℚ
  | [] => 0
  | a :: l => l.foldl max a

/-- Python `min` of a non-empty list of scalars (`0` for an empty list, never used). -/
def listMin : List ℚ → ℚ
  | [] => 0
  | a :: l => l.foldl min a

/-- The comprehension condition of `rene/_clipping/intersection.py` 591-594 (also `difference.py` 444-447,
509-512): the segment's x-range meets `[lo, hi]`. -/
def Segment.meetsRange (s : Segment) (lo hi : ℚ) : Bool :=
  decide (lo ≤ max s.start.x s.end.x) && decide (min s.start.x s.end.x ≤ hi)

/-- `rene/_clipping/intersection.py` 529-623: `intersect_multisegmental_with_multisegmental`. -/
def intersectMultisegmentals (first second : Multisegmental) : Except Err Geom :=
  let firstBox := first.boundingBox
  let secondBox := second.boundingBox
  if doBoxesHaveNoCommonContinuum firstBox secondBox then .ok .empty else
  let firstCommon := first.segments.filter fun s => doBoxesHaveCommonContinuum s.boundingBox secondBox
  if firstCommon = [] then .ok .empty else
  let secondCommon := second.segments.filter fun s => doBoxesHaveCommonContinuum s.boundingBox firstBox
  if secondCommon = [] then .ok .empty else
  let maxMinX := max (listMin (firstCommon.map fun s => s.boundingBox.minX))
    (listMin (secondCommon.map fun s => s.boundingBox.minX))
  let minMaxX := min (listMax (firstCommon.map fun s => s.boundingBox.maxX))
    (listMax (secondCommon.map fun s => s.boundingBox.maxX))
  collectMaybeEmptySegments (LinOp.intersection.run (fun p => decide (p.x > minMaxX))
    (firstCommon.filter fun s => s.meetsRange maxMinX minMaxX)
    (secondCommon.filter fun s => s.meetsRange maxMinX minMaxX))

/-- `rene/_clipping/union.py` 182-251: `unite_multisegmental_with_multisegmental`. -/
def uniteMultisegmentals (first second : Multisegmental) : Except Err Geom :=
  let firstBox := first.boundingBox
  let secondBox := second.boundingBox
  if doBoxesHaveNoCommonContinuum firstBox secondBox then
    newMultisegment (first.segments ++ second.segments) else
  let firstCommon := first.segments.filter fun s => doBoxesHaveCommonContinuum s.boundingBox secondBox
  if firstCommon = [] then newMultisegment (first.segments ++ second.segments) else
  let secondCommon := second.segments.filter fun s => doBoxesHaveCommonContinuum s.boundingBox firstBox
  if secondCommon = [] then newMultisegment (first.segments ++ second.segments) else
  collectNonEmptySegments (LinOp.union.run (fun _ => false) firstCommon secondCommon
    ++ (first.segments.filter fun s => !doBoxesHaveCommonContinuum s.boundingBox secondBox)
    ++ (second.segments.filter fun s => !doBoxesHaveCommonContinuum s.boundingBox firstBox))

/-- `rene/_clipping/difference.py` 393-478: `subtract_multisegmental_from_multisegmental`. -/
def subtractMultisegmentals (minuend subtrahend : Multisegmental) : Except Err Geom :=
  let minuendBox := minuend.boundingBox
  let subtrahendBox := subtrahend.boundingBox
  if doBoxesHaveNoCommonContinuum minuendBox subtrahendBox then .ok minuend.toGeom else
  let minuendCommon := minuend.segments.filter fun s =>
    doBoxesHaveCommonContinuum s.boundingBox subtrahendBox
  if minuendCommon = [] then .ok minuend.toGeom else
  let subtrahendCommon := subtrahend.segments.filter fun s =>
    doBoxesHaveCommonContinuum s.boundingBox minuendBox
  if subtrahendCommon = [] then .ok minuend.toGeom else
  let maxX := listMax (minuendCommon.map fun s => s.boundingBox.maxX)
  let minX := listMin (minuendCommon.map fun s => s.boundingBox.minX)
  collectMaybeEmptySegments (LinOp.difference.run (fun p => decide (p.x > maxX)) minuendCommon
      (subtrahendCommon.filter fun s => s.meetsRange minX maxX)
    ++ minuend.segments.filter fun s => !doBoxesHaveCommonContinuum s.boundingBox subtrahendBox)

/-- `rene/_clipping/difference.py` 482-546: `subtract_multisegmental_from_segment`. -/
def subtractMultisegmentalFromSegment (minuend : Segment) (subtrahend : Multisegmental) :
    Except Err Geom :=
  let minuendBox := minuend.boundingBox
  if doBoxesHaveNoCommonContinuum minuendBox subtrahend.boundingBox then .ok (.segment minuend) else
  let subtrahendCommon := subtrahend.segments.filter fun s =>
    doBoxesHaveCommonContinuum s.boundingBox minuendBox
  if subtrahendCommon = [] then .ok (.segment minuend) else
  collectMaybeEmptySegments (LinOp.difference.run (fun p => decide (p.x > minuendBox.maxX)) [minuend]
    (subtrahendCommon.filter fun s => s.meetsRange minuendBox.minX minuendBox.maxX))

/-- `rene/_clipping/symmetric_difference.py` 503-583:
`symmetric_subtract_multisegmental_from_multisegmental`. -/
def symmetricSubtractMultisegmentals (minuend subtrahend : Multisegmental) : Except Err Geom :=
  let minuendBox := minuend.boundingBox
  let subtrahendBox := subtrahend.boundingBox
  if doBoxesHaveNoCommonContinuum minuendBox subtrahendBox then
    newMultisegment (minuend.segments ++ subtrahend.segments) else
  let minuendCommon := minuend.segments.filter fun s =>
    doBoxesHaveCommonContinuum s.boundingBox subtrahendBox
  if minuendCommon = [] then newMultisegment (minuend.segments ++ subtrahend.segments) else
  let subtrahendCommon := subtrahend.segments.filter fun s =>
    doBoxesHaveCommonContinuum s.boundingBox minuendBox
  if subtrahendCommon = [] then newMultisegment (minuend.segments ++ subtrahend.segments) else
  collectMaybeEmptySegments (LinOp.symmetricDifference.run (fun _ => false) minuendCommon subtrahendCommon
    ++ (minuend.segments.filter fun s => !doBoxesHaveCommonContinuum s.boundingBox subtrahendBox)
    ++ (subtrahend.segments.filter fun s => !doBoxesHaveCommonContinuum s.boundingBox minuendBox))

/-- `rene/_clipping/symmetric_difference.py` 383-440: `symmetric_subtract_multisegmental_from_segment`. -/
def symmetricSubtractMultisegmentalFromSegment (minuend : Segment) (subtrahend : Multisegmental) :
    Except Err Geom :=
  let minuendBox := minuend.boundingBox
  if doBoxesHaveNoCommonContinuum minuendBox subtrahend.boundingBox then
    newMultisegment (minuend :: subtrahend.segments) else
  let subtrahendCommon := subtrahend.segments.filter fun s =>
    doBoxesHaveCommonContinuum s.boundingBox minuendBox
  if subtrahendCommon = [] then newMultisegment (minuend :: subtrahend.segments) else
  collectMaybeEmptySegments (LinOp.symmetricDifference.run (fun _ => false) [minuend] subtrahendCommon
    ++ subtrahend.segments.filter fun s => !doBoxesHaveCommonContinuum s.boundingBox minuendBox)

/-- `rene/_clipping/symmetric_difference.py` 444-500: `symmetric_subtract_segment_from_multisegmental`. -/
def symmetricSubtractSegmentFromMultisegmental (minuend : Multisegmental) (subtrahend : Segment) :
    Except Err Geom :=
  let subtrahendBox := subtrahend.boundingBox
  if doBoxesHaveNoCommonContinuum minuend.boundingBox subtrahendBox then
    newMultisegment (minuend.segments ++ [subtrahend]) else
  let minuendCommon := minuend.segments.filter fun s =>
    doBoxesHaveCommonContinuum s.boundingBox subtrahendBox
  if minuendCommon = [] then newMultisegment (minuend.segments ++ [subtrahend]) else
  collectMaybeEmptySegments (LinOp.symmetricDifference.run (fun _ => false) minuendCommon [subtrahend]
    ++ minuend.segments.filter fun s => !doBoxesHaveCommonContinuum s.boundingBox subtrahendBox)

end Rene
