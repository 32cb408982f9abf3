import Verif.Model.Linear
import Verif.Model.SegmentRelate

/-! Model of `rene/_relating/linear.py` and of `relate_to_multisegmental` in
`rene/_relating/multisegmental.py`: the relation of two contours or multisegments.

The sweep engine of `rene/_relating/linear.py` (lines 191-478, 637-644) is the one of
`rene/_clipping/linear.py`, and its `event.py`, `events_queue_key.py` and `sweep_line_key.py` are copies of those
of `rene/_clipping`; so the model of the engine is `Lin` (`Lin.popEvent`: `_pop` 423-424; `Lin.process`:
`_process_event` 426-445; `Lin.detectIntersection`: `_detect_intersection` 255-355; `Lin.init`:
`from_segments_iterables` and `__init__` 27-47, 194-235). -/

namespace Rene

/-- `rene/_relating/linear.py` 491-499: `dot_multiply`. -/
def dotMultiply (firstStart firstEnd secondStart secondEnd : Point) : ℚ :=
  (firstEnd.x - firstStart.x) * (secondEnd.x - secondStart.x) +
    (firstEnd.y - firstStart.y) * (secondEnd.y - secondStart.y)

/-- `rene/_relating/linear.py` 538-541: `squared_distance`. -/
def squaredDistance (start «end» : Point) : ℚ :=
  (start.x - «end».x) * (start.x - «end».x) + (start.y - «end».y) * (start.y - «end».y)

/-- `rene/_relating/linear.py` 508-535: `is_point_in_angle`. -/
def isPointInAngle (point vertex firstRayPoint secondRayPoint : Point) (angleOrientation : Orientation) : Bool :=
  let firstHalfOrientation := orient vertex firstRayPoint point
  let secondHalfOrientation := orient vertex point secondRayPoint
  if firstHalfOrientation = .collinear then decide (secondHalfOrientation = angleOrientation)
  else if secondHalfOrientation = .collinear then decide (firstHalfOrientation = angleOrientation)
  else decide (firstHalfOrientation = secondHalfOrientation) &&
    decide (firstHalfOrientation =
      if angleOrientation = .collinear then Orientation.counterclockwise else angleOrientation)

/-- `rene/_utils.py` 27-34: `all_same` of booleans. -/
def allSame : List Bool → Bool
  | [] => true
  | value :: rest => rest.all fun candidate => candidate == value

/-- Python `min(events, key=...)`: the first event with the least key. -/
def minByKey (key : Nat → ℚ) : Nat → List Nat → Nat
  | best, [] => best
  | best, e :: rest => minByKey key (if key e < key best then e else best) rest

namespace Lin

/-- `rene/_relating/linear.py` 480-488: `to_signed_point_event_squared_cosine` (the events have different ends, so
the divisor is positive). -/
def signedSquaredCosine (S : Lin) (point : Point) (event : Nat) : ℚ :=
  let start := S.start event
  let «end» := S.end event
  let dotProduct := dotMultiply start point start «end»
  (if dotProduct > 0 then dotProduct * dotProduct else -(dotProduct * dotProduct)) / squaredDistance start «end»

/-- `rene/_relating/linear.py` 49-96: `has_crossing`. -/
def hasCrossing (S : Lin) (sameStartEvents : List Nat) : Bool :=
  if sameStartEvents.length < 4 then false else
  let fromFirstEvents := sameStartEvents.filter S.isFirst
  if !(decide (1 < fromFirstEvents.length) && decide (fromFirstEvents.length < sameStartEvents.length - 1)) then
    false else
  match sameStartEvents, sameStartEvents.filter fun event => !S.isFirst event with
  | firstEvent :: _, secondEvent :: secondRest =>
    let start := S.start firstEvent
    let baseEvent := minByKey (S.signedSquaredCosine (S.end secondEvent)) secondEvent secondRest
    let baseEnd := S.end baseEvent
    let largestAngleEvent := minByKey (S.signedSquaredCosine baseEnd) secondEvent secondRest
    let largestAngleEnd := S.end largestAngleEvent
    let baseOrientation := orient start baseEnd largestAngleEnd
    !allSame (fromFirstEvents.map fun event =>
      isPointInAngle (S.end event) start baseEnd largestAngleEnd baseOrientation)
  | _, _ => false

/-- `rene/_relating/linear.py` 98-102: `has_intersection`. -/
def hasIntersection (S : Lin) (sameStartEvents : List Nat) : Bool := !allSame (sameStartEvents.map S.isFirst)

end Lin

/-- `rene/_relating/linear.py` 599-634: the fields of `class RelationState`; `ok` records the `assert` of line
591. -/
structure RelationState where
  firstIsSubset : Bool
  secondIsSubset : Bool
  hasCrossing : Bool := false
  hasIntersection : Bool := false
  hasOverlap : Bool := false
  ok : Bool := true
  deriving DecidableEq, Repr

namespace RelationState

/-- `rene/_relating/linear.py` 588-597: the body of the loop of `_detect_touch_or_overlap` for one group; the
assert of line 591 says that a group has at most two events. -/
def detectGroup (S : Lin) (state : RelationState) (group : List Nat) : RelationState :=
  match group with
  | [] => state
  | [event] =>
    if S.isFirst event then { state with firstIsSubset := false } else { state with secondIsSubset := false }
  | _ :: _ :: rest => { state with hasOverlap := true, ok := state.ok && rest.isEmpty }

/-- `rene/_relating/linear.py` 577-597: `_detect_touch_or_overlap`. -/
def detectTouchOrOverlap (S : Lin) (state : RelationState) (sameStartEvents : List Nat) : RelationState :=
  (groupby S.end (sameStartEvents.filter isLeft)).foldl (fun state g => detectGroup S state g.2) state

/-- `rene/_relating/linear.py` 569-575: `_detect_crossing`. -/
def detectCrossing (S : Lin) (state : RelationState) (sameStartEvents : List Nat) : RelationState :=
  if !state.hasCrossing && S.hasCrossing sameStartEvents then { state with hasCrossing := true } else state

/-- `rene/_relating/linear.py` 545-567: `update` (the asserts of lines 555-558 and 562-565 repeat that all events
are of one operand, which is the negation of the first condition). -/
def update (S : Lin) (state : RelationState) (sameStartEvents : List Nat) : RelationState :=
  if S.hasIntersection sameStartEvents then
    (({ state with hasIntersection := true }).detectTouchOrOverlap S sameStartEvents).detectCrossing S
      sameStartEvents
  else
    match sameStartEvents with
    | [] => state
    | event :: _ =>
      if S.isFirst event then { state with firstIsSubset := false } else { state with secondIsSubset := false }

/-- `rene/_relating/linear.py` 175-187: the end of `to_relation`. -/
def relation (state : RelationState) : Relation :=
  if state.firstIsSubset then (if state.secondIsSubset then .equal else .component)
  else if state.secondIsSubset then .composite
  else if state.hasOverlap then .overlap
  else if state.hasCrossing then .cross
  else if state.hasIntersection then .touch
  else .disjoint

end RelationState

namespace Lin

/-- `rene/_relating/linear.py` 134-173: the loop of `to_relation` with the current group of events
(`same_start_events`) and `previous_start`; `fuel` bounds the number of iterations. -/
def relateLoop (minMaxX : ℚ) : Nat → Lin → RelationState → Point → List Nat → Lin × RelationState
  | 0, S, state, _, _ => (S, state)
  | fuel + 1, S, state, previousStart, group =>
    match S.popEvent with
    | none => (S, state.update S group)
    | some event =>
      let start := S.start event
      if start = previousStart then relateLoop minMaxX fuel (S.process event) state previousStart (group ++ [event])
      else
        let state := state.update S group
        if state.hasOverlap && !state.firstIsSubset && !state.secondIsSubset then
          ({ S with ok := S.ok && S.queueOk }, state)
        else if start.x > minMaxX then
          ({ S with ok := S.ok && S.queueOk },
            if S.isFirst event then { state with firstIsSubset := false }
            else { state with secondIsSubset := false })
        else relateLoop minMaxX fuel (S.process event) state start [event]

/-- `rene/_relating/linear.py` 115-187: `to_relation` (the queue is not empty in the calls, see
`relateMultisegmentals`). -/
def toRelation (S : Lin) (count : Nat) (firstIsSubset secondIsSubset : Bool) (minMaxX : ℚ) : Except Err Relation :=
  match S.popEvent with
  | none => .error .indexError
  | some event =>
    let r := (S.process event).relateLoop minMaxX (Lin.fuel count)
      { firstIsSubset := firstIsSubset, secondIsSubset := secondIsSubset } (S.start event) [event]
    if r.1.ok && r.2.ok then .ok r.2.relation else .error .assertionError

end Lin

/-- The relaters passed to `relate_to_multisegmental` (`rene/_relating/contour.py` 21-106,
`rene/_relating/multisegment.py` 21-95): the relation of a segment to some of the segments of the geometry, by its
kind. -/
def Multisegmental.relater (g : Multisegmental) (start «end» : Point) (segments : List Segment) :
    Except Err Relation :=
  match g with
  | .contour _ => relateToContourSegments start «end» segments
  | .multisegment _ => .ok (relateToMultisegmentSegments start «end» segments)

/-- `rene/_relating/multisegmental.py` 117-241: `relate_to_multisegmental`, which is `relate_to` of a contour or
multisegment with a contour or multisegment (`rene/_geometries/base_contour.py` 111-131,
`rene/_geometries/base_multisegment.py` 87-106). -/
def relateMultisegmentals (first second : Multisegmental) : Except Err Relation :=
  let firstBox := first.boundingBox
  let secondBox := second.boundingBox
  if firstBox.disjointWith secondBox then .ok .disjoint else
  let firstIntersecting := first.segments.filter fun s => !s.boundingBox.disjointWith secondBox
  match firstIntersecting with
  | [] => .ok .disjoint
  | [firstSegment] => do
    let relation ← second.relater firstSegment.start firstSegment.end second.segments
    pure (if relation = .component ∨ relation = .equal then .overlap else relation)
  | _ :: _ :: _ =>
    let secondIntersecting := second.segments.filter fun s => !s.boundingBox.disjointWith firstBox
    match secondIntersecting with
    | [] => .ok .disjoint
    | [secondSegment] => do
      let relation ← first.relater secondSegment.start secondSegment.end firstIntersecting
      pure (if relation = .component ∨ ((relation = .composite ∨ relation = .equal) ∧
          firstIntersecting.length ≠ first.segments.length) then .overlap else relation.complement)
    | _ :: _ :: _ =>
      let maxMinX := max (listMin (firstIntersecting.map fun s => s.boundingBox.minX))
        (listMin (secondIntersecting.map fun s => s.boundingBox.minX))
      let minMaxX := min (listMax (firstIntersecting.map fun s => s.boundingBox.maxX))
        (listMax (secondIntersecting.map fun s => s.boundingBox.maxX))
      let firstKept := firstIntersecting.filter fun s =>
        decide (maxMinX ≤ s.boundingBox.maxX) && decide (s.boundingBox.minX ≤ minMaxX)
      if firstKept = [] then .ok .disjoint else
      let secondKept := secondIntersecting.filter fun s =>
        decide (maxMinX ≤ s.boundingBox.maxX) && decide (s.boundingBox.minX ≤ minMaxX)
      if secondKept = [] then .error .assertionError else
      (Lin.init firstKept secondKept).toRelation (firstKept.length + secondKept.length)
        (decide (firstKept.length = first.segments.length))
        (decide (secondKept.length = second.segments.length)) minMaxX

end Rene
