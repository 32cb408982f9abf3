import Verif.Model.Linear
import Verif.Model.ContourOps
import Verif.Model.Relating

/-! Model of `rene/_bentley_ottmann` and of `is_valid` of multisegments and contours.

Representation as in `Verif/Model/Linear.lean`: the events, their endpoints, opposites and segment ids, the queue
and the sweep line are kept in a `Lin` (its field `firstCount` is not used here).  Two simplifications:

* the priority queue compares keys whose last component (the other end of the event) may change while the event is
  queued, so only the first components (start, right before left) are relied upon: `pick` is any choice of an event
  which is least by them, and the theorems quantify over all choices;
* `assert`s and failing container operations are collected in the flag `ok` (the type-like asserts
  `is_event_left(event)` of the helpers are not recorded). -/

namespace Rene.BO
open Rene

/-- `rene/_bentley_ottmann/events_registry.py` 86-96: the fields of `class EventsRegistry`. -/
structure Reg where
  lin : Lin
  minColl : List Nat
  deriving Repr, DecidableEq

/-- `rene/_bentley_ottmann/sweep_line_key.py` 37-80: `SweepLineKey.__lt__` on segments with the given endpoints. -/
def keyLt (start end_ otherStart otherEnd : Point) : Bool :=
  let otherStartOrientation := orient start end_ otherStart
  let otherEndOrientation := orient start end_ otherEnd
  if otherStartOrientation = otherEndOrientation then
    if otherStartOrientation ≠ .collinear then decide (otherStartOrientation = .counterclockwise)
    else if start.y = otherStart.y then
      if start.x ≠ otherStart.x then decide (start.x < otherStart.x)
      else if end_.y ≠ otherEnd.y then decide (end_.y < otherEnd.y)
      else decide (end_.x < otherEnd.x)
    else decide (start.y < otherStart.y)
  else
    let startOrientation := orient otherStart otherEnd start
    let endOrientation := orient otherStart otherEnd end_
    if startOrientation = endOrientation then decide (startOrientation = .clockwise)
    else if otherStartOrientation = .collinear then decide (otherEndOrientation = .counterclockwise)
    else if startOrientation = .collinear then decide (endOrientation = .clockwise)
    else if endOrientation = .collinear then decide (startOrientation = .clockwise)
    else decide (otherStartOrientation = .counterclockwise)

namespace Reg

/-- `rene/_bentley_ottmann/events_registry.py` 75-76: `to_event_start`. -/
def start (R : Reg) (event : Nat) : Point := R.lin.start event

/-- `rene/_bentley_ottmann/events_registry.py` 67-68: `to_event_end`. -/
def «end» (R : Reg) (event : Nat) : Point := R.lin.end event

/-- `rene/_bentley_ottmann/events_registry.py` 447-448: `_to_opposite_event`. -/
def opp (R : Reg) (event : Nat) : Nat := R.lin.opp event

/-- `rene/_bentley_ottmann/events_registry.py` 433-435: `_to_left_event_segment_id`. -/
def leftSid (R : Reg) (event : Nat) : Nat := R.lin.sid event

/-- `rene/_bentley_ottmann/events_registry.py` 70-73: `to_event_segment_id`. -/
def sid (R : Reg) (event : Nat) : Nat := R.leftSid (if isLeft event then event else R.opp event)

/-- `rene/_bentley_ottmann/events_registry.py` 122-127: the key of the sweep line. -/
def lt (R : Reg) (event other : Nat) : Bool := keyLt (R.start event) (R.end event) (R.start other) (R.end other)

/-- The first components of the keys of the queue (`rene/_bentley_ottmann/events_queue_key.py` 36-61). -/
def queueLt (R : Reg) (event other : Nat) : Bool :=
  if (R.start event).x ≠ (R.start other).x then decide ((R.start event).x < (R.start other).x)
  else if (R.start event).y ≠ (R.start other).y then decide ((R.start event).y < (R.start other).y)
  else if isLeft event ≠ isLeft other then !isLeft event
  else false

/-- `rene/_bentley_ottmann/events_registry.py` 426-427: `_push`. -/
def push (R : Reg) (event : Nat) : Reg := { R with lin := { R.lin with queue := event :: R.lin.queue } }

/-- The key of an event of the sweep line equals the given one. -/
def sameKey (R : Reg) (event x : Nat) : Bool := !R.lt x event && !R.lt event x

/-- `rene/_bentley_ottmann/events_registry.py` 164-169: `_above`. -/
def above (R : Reg) (event : Nat) : Option Nat :=
  if R.lin.sweepLine.any (R.sameKey event) then R.lin.sweepLine.find? fun x => R.lt event x else none

/-- `rene/_bentley_ottmann/events_registry.py` 175-180: `_below`. -/
def below (R : Reg) (event : Nat) : Option Nat :=
  if R.lin.sweepLine.any (R.sameKey event) then R.lin.sweepLine.reverse.find? fun x => R.lt x event else none

/-- `rene/_bentley_ottmann/events_registry.py` 171-173: `_add`: insertion at the position given by the key. -/
def add (R : Reg) (event : Nat) : Reg :=
  { R with lin := { R.lin with sweepLine := (R.lin.sweepLine.takeWhile fun x => R.lt x event) ++ event ::
      R.lin.sweepLine.dropWhile fun x => R.lt x event } }

/-- `rene/_bentley_ottmann/events_registry.py` 429-431: `_remove`. -/
def remove (R : Reg) (event : Nat) : Reg :=
  { R with lin := { R.lin with
      sweepLine := R.lin.sweepLine.eraseP (R.sameKey event)
      ok := R.lin.ok && R.lin.sweepLine.any (R.sameKey event) } }

/-- `rene/_bentley_ottmann/events_registry.py` 374-394: `_find`: the greatest entry which is not greater, if it
has the same endpoints. -/
def find (R : Reg) (event : Nat) : Option Nat :=
  match R.lin.sweepLine.reverse.find? fun x => !R.lt event x with
  | none => none
  | some candidate =>
    if R.start candidate = R.start event ∧ R.end candidate = R.end event then some candidate else none

/-- `rene/_bentley_ottmann/events_registry.py` 284-300: `_divide`; returns the new state, the new right event and
the new left event. -/
def divide (R : Reg) (event : Nat) (midPoint : Point) : Reg × Nat × Nat :=
  let r := R.lin.divide event midPoint
  ({ R with lin := r.1 }, r.2.1, r.2.2)

/-- Parent in `_min_collinear_segments_ids` (indices are always in range). -/
def parent (R : Reg) (segmentId : Nat) : Nat := R.minColl.getD segmentId 0

/-- `rene/_bentley_ottmann/events_registry.py` 396-421: `_merge_equal_segment_events`. -/
def merge (R : Reg) (first second : Nat) : Reg :=
  let f := R.leftSid first
  let s := R.leftSid second
  let pf := R.parent f
  let ps := R.parent s
  let m := min pf ps
  { R with minColl := (((R.minColl.set f m).set s m).set pf m).set ps m }

/-- `rene/_bentley_ottmann/events_registry.py` 323-330: `_divide_event_by_midpoint`. -/
def divideByMidpoint (R : Reg) (event : Nat) (point : Point) : Reg :=
  let r := R.divide event point
  (r.1.push r.2.1).push r.2.2

/-- The division shared by 215-222, 302-321 and 357-372: the new left event is merged instead of pushed. -/
def divideMerging (R : Reg) (event : Nat) (point : Point) (equalEvent : Nat) : Reg :=
  let r := R.divide event point
  (r.1.push r.2.1).merge equalEvent r.2.2

/-- `rene/_bentley_ottmann/events_registry.py` 302-321: `_divide_event_by_mid_segment_event_endpoints`. -/
def divideByMidSegment (R : Reg) (event midSegmentEvent : Nat) (midStart midEnd : Point) : Reg :=
  (R.divideByMidpoint event midEnd).divideMerging event midStart midSegmentEvent

/-- `rene/_bentley_ottmann/events_registry.py` 332-344: `_divide_event_by_midpoint_checking_above`. -/
def divideCheckingAbove (R : Reg) (event : Nat) (point : Point) : Reg :=
  match R.above event with
  | some aboveEvent =>
    if R.start aboveEvent = R.start event ∧ R.end aboveEvent = point then
      ((R.remove aboveEvent).divideByMidpoint event point).merge event aboveEvent
    else R.divideByMidpoint event point
  | none => R.divideByMidpoint event point

/-- `rene/_bentley_ottmann/events_registry.py` 346-372: `_divide_overlapping_events`. -/
def divideOverlapping (R : Reg) (minStartEvent maxStartEvent : Nat) (maxStart minEnd : Point) : Reg :=
  (R.divideByMidpoint maxStartEvent minEnd).divideMerging minStartEvent maxStart maxStartEvent

/-- `rene/_bentley_ottmann/events_registry.py` 197-210: equal starts of collinear segments: the longer event leaves
the sweep line, the rest of it is pushed. -/
def divideLonger (R : Reg) (belowEvent event : Nat) : Reg :=
  let maxEndEvent := if (R.end event).ltB (R.end belowEvent) then belowEvent else event
  let minEndEvent := if (R.end event).ltB (R.end belowEvent) then event else belowEvent
  let R := R.remove maxEndEvent
  let minEnd := R.end minEndEvent
  let r := R.divide maxEndEvent minEnd
  (r.1.push r.2.2).merge event belowEvent

/-- `rene/_bentley_ottmann/events_registry.py` 182-282: `_detect_intersection` without its `assert`s. -/
def detect (R : Reg) (belowEvent event : Nat) : Reg :=
  let eventStart := R.start event
  let eventEnd := R.end event
  let belowStart := R.start belowEvent
  let belowEnd := R.end belowEvent
  let startOrientation := orient belowEnd belowStart eventStart
  let endOrientation := orient belowEnd belowStart eventEnd
  if startOrientation = endOrientation then
    if startOrientation = .collinear then
      if eventStart = belowStart then R.divideLonger belowEvent event
      else if eventEnd = belowEnd then
        if eventStart.ltB belowStart then R.divideMerging event belowStart belowEvent
        else R.divideMerging belowEvent eventStart event
      else if belowStart.ltB eventStart && eventStart.ltB belowEnd then
        if eventEnd.ltB belowEnd then R.divideByMidSegment belowEvent event eventStart eventEnd
        else R.divideOverlapping belowEvent event eventStart belowEnd
      else if eventStart.ltB belowStart && belowStart.ltB eventEnd then
        if belowEnd.ltB eventEnd then R.divideByMidSegment event belowEvent belowStart belowEnd
        else R.divideOverlapping event belowEvent belowStart eventEnd
      else R
    else R
  else if startOrientation = .collinear then
    if belowStart.ltB eventStart && eventStart.ltB belowEnd then R.divideByMidpoint belowEvent eventStart
    else R
  else if endOrientation = .collinear then
    if belowStart.ltB eventEnd && eventEnd.ltB belowEnd then R.divideByMidpoint belowEvent eventEnd
    else R
  else
    let belowStartOrientation := orient eventStart eventEnd belowStart
    let belowEndOrientation := orient eventStart eventEnd belowEnd
    if belowStartOrientation = .collinear then
      if eventStart.ltB belowStart && belowStart.ltB eventEnd then R.divideCheckingAbove event belowStart
      else R
    else if belowEndOrientation = .collinear then
      if eventStart.ltB belowEnd && belowEnd.ltB eventEnd then R.divideCheckingAbove event belowEnd
      else R
    else if belowStartOrientation ≠ belowEndOrientation then
      let crossPoint := toSegmentsIntersection eventStart eventEnd belowStart belowEnd
      (R.divideByMidpoint belowEvent crossPoint).divideCheckingAbove event crossPoint
    else R

/-- The `assert`s of `_detect_intersection` (`rene/_bentley_ottmann/events_registry.py` 198, 261, 276-277). -/
def detectAsserts (R : Reg) (belowEvent event : Nat) : Bool :=
  let eventStart := R.start event
  let eventEnd := R.end event
  let belowStart := R.start belowEvent
  let belowEnd := R.end belowEvent
  let startOrientation := orient belowEnd belowStart eventStart
  let endOrientation := orient belowEnd belowStart eventEnd
  if startOrientation = endOrientation then
    if startOrientation = .collinear then decide (eventStart = belowStart → eventEnd ≠ belowEnd)
    else true
  else if startOrientation = .collinear then true
  else if endOrientation = .collinear then true
  else
    let belowStartOrientation := orient eventStart eventEnd belowStart
    let belowEndOrientation := orient eventStart eventEnd belowEnd
    if belowStartOrientation = .collinear then decide (belowEndOrientation ≠ .collinear)
    else if belowEndOrientation = .collinear then true
    else if belowStartOrientation ≠ belowEndOrientation then
      let crossPoint := toSegmentsIntersection eventStart eventEnd belowStart belowEnd
      eventStart.ltB crossPoint && crossPoint.ltB eventEnd && belowStart.ltB crossPoint
        && crossPoint.ltB belowEnd
    else true

/-- `rene/_bentley_ottmann/events_registry.py` 182-282: `_detect_intersection`, recording failed `assert`s. -/
def detectIntersection (R : Reg) (belowEvent event : Nat) : Reg :=
  let T := R.detect belowEvent event
  { T with lin := { T.lin with ok := T.lin.ok && R.detectAsserts belowEvent event } }

/-- `rene/_bentley_ottmann/events_registry.py` 132-148: the body of `__iter__` after `_pop` for a left event. -/
def processLeft (R : Reg) (event : Nat) : Reg :=
  match R.find event with
  | some equalEvent => R.merge equalEvent event
  | none =>
    let R := R.add event
    let R := match R.below event with
      | some b => R.detectIntersection b event
      | none => R
    match R.above event with
    | some a => R.detectIntersection event a
    | none => R

/-- `rene/_bentley_ottmann/events_registry.py` 149-162: the body of `__iter__` after `_pop` for a right event (the
condition of line 157 always holds: one event is right, the other one is left). -/
def processRight (R : Reg) (event : Nat) : Reg :=
  let oppositeEvent := R.opp event
  match R.find oppositeEvent with
  | none => R
  | some equalEvent =>
    let aboveEvent := R.above equalEvent
    let belowEvent := R.below equalEvent
    let R := R.remove equalEvent
    let R := match belowEvent, aboveEvent with
      | some b, some a => R.detectIntersection b a
      | _, _ => R
    R.merge equalEvent oppositeEvent

/-- `rene/_bentley_ottmann/events_registry.py` 130-162: one iteration of `__iter__` for the popped event.  With
`unique=False`, as used by `sweep`, every event is yielded. -/
def process (R : Reg) (event : Nat) : Reg :=
  let R := { R with lin := { R.lin with queue := R.lin.queue.erase event } }
  if isLeft event then R.processLeft event else R.processRight event

/-- `rene/_bentley_ottmann/events_registry.py` 29-56: `from_segments`. -/
def init (segments : List Segment) : Reg :=
  { lin :=
      { firstCount := 0
        endpoints := Lin.segmentsEndpoints segments
        opposites := (List.range (2 * segments.length)).map fun i => i / 2 * 2 + (if i % 2 = 0 then 1 else 0)
        segmentsIds := List.range segments.length
        queue := List.range (2 * segments.length)
        sweepLine := []
        ok := true }
    minColl := List.range segments.length }

/-- `rene/_bentley_ottmann/events_registry.py` 437-445: the loop of `_to_min_collinear_segment_id` with the number
of its iterations, for at most the given number of them. -/
def minCollinear (R : Reg) : Nat → Nat → Nat × Nat
  | 0, candidate => (candidate, 0)
  | fuel + 1, candidate =>
    if R.parent candidate ≠ candidate then
      let r := R.minCollinear fuel (R.parent candidate)
      (r.1, r.2 + 1)
    else (candidate, 0)

/-- `rene/_bentley_ottmann/events_registry.py` 437-445: `_to_min_collinear_segment_id`; `none` for the failed
`assert` (it fails for every number of iterations from 3 on, so the model stops there). -/
def toMinCollinear (R : Reg) (segmentId : Nat) : Option Nat :=
  let r := R.minCollinear 3 segmentId
  if r.2 < 3 then some r.1 else none

/-- `rene/_bentley_ottmann/events_registry.py` 62-65: `are_collinear`. -/
def areCollinear (R : Reg) (first second : Nat) : Option Bool :=
  match R.toMinCollinear first with
  | none => none
  | some f =>
    match R.toMinCollinear second with
    | none => none
    | some s => some (f = s)

/-- `rene/_bentley_ottmann/events_registry.py` 81-84: `to_segment_start`. -/
def segmentStart (R : Reg) (segmentId : Nat) : Point := R.start (2 * segmentId)

/-- `rene/_bentley_ottmann/events_registry.py` 78-79: `to_segment_end`. -/
def segmentEnd (R : Reg) (segmentId : Nat) : Point := R.start (2 * segmentId + 1)

end Reg

/-- `rene/_bentley_ottmann/base.py` 14-63: `class Intersection`. -/
structure Intersection where
  firstSegmentId : Nat
  secondSegmentId : Nat
  relation : Relation
  start : Point
  «end» : Point
  deriving Repr, DecidableEq

/-- `rene/_bentley_ottmann/base.py` 111-164: the intersection of a pair of segments containing the point (the loop
body of `segments_ids_containing_point_to_intersections`). -/
def toIntersection (R : Reg) (point : Point) (first second : Nat) : Option Intersection :=
  let firstStart := R.segmentStart first
  let firstEnd := R.segmentEnd first
  let secondStart := R.segmentStart second
  let secondEnd := R.segmentEnd second
  if first = second then some ⟨first, second, .equal, firstStart, firstEnd⟩
  else
    match R.areCollinear first second with
    | none => none
    | some false =>
      some ⟨first, second,
        if firstStart = point ∨ firstEnd = point ∨ secondStart = point ∨ secondEnd = point then .touch else .cross,
        point, point⟩
    | some true =>
      if (pyMax firstStart secondStart) = (pyMin firstEnd secondEnd) then
        some ⟨first, second, .touch, point, point⟩
      else if firstStart = secondStart then
        if firstEnd = secondEnd then some ⟨first, second, .equal, firstStart, firstEnd⟩
        else if secondEnd.ltB firstEnd then some ⟨first, second, .composite, firstStart, secondEnd⟩
        else some ⟨first, second, .component, firstStart, firstEnd⟩
      else if secondStart.ltB firstStart then
        if secondEnd.ltB firstEnd then some ⟨first, second, .overlap, firstStart, secondEnd⟩
        else some ⟨first, second, .component, firstStart, firstEnd⟩
      else if firstEnd.ltB secondEnd then some ⟨first, second, .overlap, secondStart, firstEnd⟩
      else some ⟨first, second, .composite, secondStart, secondEnd⟩

/-- `itertools.combinations(ids, 2)`. -/
def pairsOf : List Nat → List (Nat × Nat)
  | [] => []
  | x :: rest => rest.map (fun y => (x, y)) ++ pairsOf rest

/-- The consumer of the intersections of one point (`rene/_geometries/base_contour.py` 91-98,
`rene/_geometries/base_multisegment.py` 71-78): `none` when an `assert` fails, `some none` when some intersection
fails the test, otherwise the number of the intersections. -/
def consume (test : Intersection → Bool) (R : Reg) (point : Point) : List (Nat × Nat) → Option (Option Nat)
  | [] => some (some 0)
  | (i, j) :: rest =>
    match toIntersection R point i j with
    | none => none
    | some intersection =>
      if test intersection then
        match consume test R point rest with
        | some (some n) => some (some (n + 1))
        | r => r
      else some none

/-- `rene/_bentley_ottmann/base.py` 66-108: `sweep` together with its consumer: pops events (each of them chosen by
`pick`), groups them by start and tests the intersections of each group when the next group starts.  `none` when
an `assert` fails (or the fuel is exhausted), `some none` when some intersection fails the test, otherwise the
number of the intersections.  `point` and `ids` are the start and the segments ids of the current group. -/
def sweepLoop (pick : Reg → Nat) (test : Intersection → Bool) :
    Nat → Reg → Point → List Nat → Nat → Option (Option Nat)
  | 0, _, _, _, _ => none
  | fuel + 1, R, point, ids, count =>
    if R.lin.queue = [] then
      match consume test R point (pairsOf ids) with
      | some (some n) => some (some (count + n))
      | r => r
    else
      let event := pick R
      let R := R.process event
      if R.lin.ok = false then none
      else if R.start event = point then sweepLoop pick test fuel R point (ids ++ [R.sid event]) count
      else
        match consume test R point (pairsOf ids) with
        | some (some n) => sweepLoop pick test fuel R (R.start event) [R.sid event] (count + n)
        | r => r

/-- `rene/_bentley_ottmann/base.py` 66-108: `sweep` from the start.  For no segments at all `next(events)` raises. -/
def sweepWith (pick : Reg → Nat) (test : Intersection → Bool) (fuel : Nat) (segments : List Segment) :
    Option (Option Nat) :=
  let R := Reg.init segments
  if R.lin.queue = [] then none
  else
    let event := pick R
    let R := R.process event
    if R.lin.ok = false then none
    else sweepLoop pick test fuel R (R.start event) [R.sid event] 0

/-- `rene/_geometries/base_multisegment.py` 70-78: `Multisegment.is_valid`; `none` for a failed `assert` or an
exhausted fuel. -/
def multisegmentIsValid (pick : Reg → Nat) (fuel : Nat) (m : Multisegment) : Option Bool :=
  match sweepWith pick (fun i => i.relation = .touch) fuel m.segments with
  | none => none
  | some none => some false
  | some (some _) => some true

/-- `rene/_geometries/base_contour.py` 476-508: `_neighbour_segments_vertices_touch`. -/
def neighbourSegmentsVerticesTouch (segments : List Segment) (i : Intersection) : Bool :=
  let first := segments.getD i.firstSegmentId ⟨⟨0, 0⟩, ⟨0, 0⟩⟩
  let second := segments.getD i.secondSegmentId ⟨⟨0, 0⟩, ⟨0, 0⟩⟩
  (decide (i.relation = .touch) && (decide (i.start = first.start) || decide (i.start = first.end)) &&
    (decide (i.start = second.start) || decide (i.start = second.end))) &&
  (decide (i.firstSegmentId = i.secondSegmentId + 1 ∨ i.secondSegmentId = i.firstSegmentId + 1) ||
    (decide (i.firstSegmentId = segments.length - 1) && decide (i.secondSegmentId = 0)) ||
    (decide (i.secondSegmentId = segments.length - 1) && decide (i.firstSegmentId = 0)))

/-- `rene/_geometries/base_contour.py` 82-99: `Contour.is_valid`. -/
def contourIsValid (pick : Reg → Nat) (fuel : Nat) (c : Contour) : Option Bool :=
  if areContourVerticesNonDegenerate c.vertices = false then some false
  else if c.segments.length < 3 then some false
  else
    match sweepWith pick (neighbourSegmentsVerticesTouch c.segments) fuel c.segments with
    | none => none
    | some none => some false
    | some (some n) => some (decide (n = c.segments.length))

/-- `rene/_bentley_ottmann/events_queue_key.py` 36-66: `EventsQueueKey.__lt__` with all components. -/
def Reg.fullLt (R : Reg) (event other : Nat) : Bool :=
  if (R.start event).x ≠ (R.start other).x then decide ((R.start event).x < (R.start other).x)
  else if (R.start event).y ≠ (R.start other).y then decide ((R.start event).y < (R.start other).y)
  else if isLeft event ≠ isLeft other then !isLeft event
  else (R.end event).ltB (R.end other)

/-- `rene/_bentley_ottmann/events_registry.py` 423-424: `_pop`, by the present keys. -/
def pickFull (R : Reg) : Nat :=
  match R.lin.queue with
  | [] => 0
  | x :: rest => Lin.leastFrom R.fullLt x rest

end Rene.BO
