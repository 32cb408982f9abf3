import Verif.Model.Mixed
import Verif.Model.Helpers

/-! Model of the sweep engine `rene/_clipping/shaped.py` (two shaped operands), of the assembly of its events
into polygons (`reduce_events`) and of the operations on polygons and multipolygons computed with it.

The events, the queue and the sweep line are those of `Lin`, see `Verif.Model.Mixed`.  `UNDEFINED_INDEX` and
`UNDEFINED_EVENT` are `none`. -/

namespace Rene

/-- `rene/_clipping/shaped.py` 791-794: `OverlapKind`. -/
inductive OverlapKind where
  | none | sameOrientation | differentOrientation
  deriving DecidableEq, Repr

/-- `rene/_clipping/shaped.py` 185-236: the fields of `class Operation`. -/
structure Shp where
  lin : Lin
  interior : List Bool
  other : List Bool
  fromResult : List Bool
  kinds : List OverlapKind
  belowFromResult : List (Option Nat)
  startsIds : List (Option Nat)
  currentFirst : Nat
  currentId : Nat
  deriving Repr, DecidableEq

/-- The subclasses of `shaped.Operation`. -/
inductive ShpOp where
  | difference | intersection | union | symmetricDifference
  deriving DecidableEq, Repr

namespace Shp

/-- `self._overlap_kinds[left_event_to_position(event)]`: `rene/_clipping/shaped.py` 617-664. -/
def kind (S : Shp) (event : Nat) : OverlapKind := S.kinds.getD (event / 2) .none

/-- `rene/_clipping/shaped.py` 641-646: `_is_left_event_inside`. -/
def isInside (S : Shp) (event : Nat) : Bool :=
  S.other.getD (event / 2) false && decide (S.kind event = .none)

/-- `rene/_clipping/shaped.py` 653-658: `_is_left_event_outside`. -/
def isOutside (S : Shp) (event : Nat) : Bool :=
  !S.other.getD (event / 2) false && decide (S.kind event = .none)

/-- `rene/_clipping/shaped.py` 666-668: `_is_left_event_vertical`. -/
def isVertical (S : Shp) (event : Nat) : Bool :=
  decide ((S.lin.start event).x = (S.lin.end event).x)

end Shp

/-- `_detect_if_left_event_from_result` of the subclasses: `rene/_clipping/difference.py` 52-61,
`intersection.py` 54-59, `union.py` 37-42, `symmetric_difference.py` 39-41. -/
def ShpOp.detects (op : ShpOp) (S : Shp) (event : Nat) : Bool :=
  match op with
  | .difference =>
    if S.lin.leftFirst event then S.isOutside event
    else S.isInside event || decide (S.kind event = .differentOrientation)
  | .intersection =>
    S.isInside event || (!S.lin.leftFirst event && decide (S.kind event = .sameOrientation))
  | .union =>
    S.isOutside event || (!S.lin.leftFirst event && decide (S.kind event = .sameOrientation))
  | .symmetricDifference => decide (S.kind event = .none)

namespace Shp

/-- `rene/_clipping/shaped.py` 313-339: `_compute_left_event_fields`. -/
def computeFields (op : ShpOp) (S : Shp) (event : Nat) (belowEvent : Option Nat) : Shp :=
  let S := match belowEvent with
    | some below =>
      let value := if S.lin.leftFirst event = S.lin.leftFirst below then S.other.getD (below / 2) false
        else S.interior.getD (S.lin.sid below) false
      let S := { S with other := S.other.set (event / 2) value }
      let belowFromResult := if !op.detects S below || S.isVertical below
        then S.belowFromResult.getD (below / 2) none else some below
      { S with belowFromResult := S.belowFromResult.set (event / 2) belowFromResult }
    | none => S
  { S with fromResult := S.fromResult.set (event / 2) (op.detects S event) }

/-- `rene/_clipping/shaped.py` 511-539, 551-558: `_divide` followed by two `_push`es. -/
def divideByMidpoint (S : Shp) (event : Nat) (point : Point) : Shp :=
  { S with
    lin := S.lin.divideByMidpoint event point
    other := S.other ++ [false]
    fromResult := S.fromResult ++ [false]
    kinds := S.kinds ++ [.none]
    belowFromResult := S.belowFromResult ++ [none]
    startsIds := S.startsIds ++ [none, none] }

/-- `rene/_clipping/shaped.py` 541-549: `_divide_event_by_mid_segment_event_endpoints`. -/
def divideByMidSegment (S : Shp) (event : Nat) (midStart midEnd : Point) : Shp :=
  (S.divideByMidpoint event midEnd).divideByMidpoint event midStart

/-- `rene/_clipping/shaped.py` 560-569: `_divide_overlapping_events`. -/
def divideOverlapping (S : Shp) (minStartEvent maxStartEvent : Nat) (maxStart minEnd : Point) : Shp :=
  (S.divideByMidpoint maxStartEvent minEnd).divideByMidpoint minStartEvent maxStart

/-- `rene/_clipping/shaped.py` 425-440: both events are marked as overlapping. -/
def markOverlap (S : Shp) (belowEvent event : Nat) : Shp :=
  let kind := if S.interior.getD (S.lin.sid event) false = S.interior.getD (S.lin.sid belowEvent) false
    then OverlapKind.sameOrientation else OverlapKind.differentOrientation
  { S with kinds := (S.kinds.set (belowEvent / 2) kind).set (event / 2) kind }

/-- `rene/_clipping/shaped.py` 389-509: `_detect_intersection` without its `assert`s; the second component is
the returned value. -/
def detect (S : Shp) (belowEvent event : Nat) : Shp × Bool :=
  let eventStart := S.lin.start event
  let eventEnd := S.lin.end event
  let belowStart := S.lin.start belowEvent
  let belowEnd := S.lin.end belowEvent
  let startOrientation := orient belowStart belowEnd eventStart
  let endOrientation := orient belowStart belowEnd eventEnd
  if startOrientation = endOrientation then
    if startOrientation = .collinear then
      if eventStart = belowStart then
        let S := if eventEnd ≠ belowEnd then
            if eventEnd.ltB belowEnd then S.divideByMidpoint belowEvent eventEnd
            else S.divideByMidpoint event belowEnd
          else S
        (S.markOverlap belowEvent event, true)
      else if eventEnd = belowEnd then
        if eventStart.ltB belowStart then (S.divideByMidpoint event belowStart, false)
        else (S.divideByMidpoint belowEvent eventStart, false)
      else if belowStart.ltB eventStart && eventStart.ltB belowEnd then
        if eventEnd.ltB belowEnd then (S.divideByMidSegment belowEvent eventStart eventEnd, false)
        else (S.divideOverlapping belowEvent event eventStart belowEnd, false)
      else if eventStart.ltB belowStart && belowStart.ltB eventEnd then
        if belowEnd.ltB eventEnd then (S.divideByMidSegment event belowStart belowEnd, false)
        else (S.divideOverlapping event belowEvent belowStart eventEnd, false)
      else (S, false)
    else (S, false)
  else if startOrientation = .collinear then
    if belowStart.ltB eventStart && eventStart.ltB belowEnd then
      (S.divideByMidpoint belowEvent eventStart, false)
    else (S, false)
  else if endOrientation = .collinear then
    if belowStart.ltB eventEnd && eventEnd.ltB belowEnd then (S.divideByMidpoint belowEvent eventEnd, false)
    else (S, false)
  else
    let belowStartOrientation := orient eventStart eventEnd belowStart
    let belowEndOrientation := orient eventStart eventEnd belowEnd
    if belowStartOrientation = .collinear then
      if eventStart.ltB belowStart && belowStart.ltB eventEnd then
        (S.divideByMidpoint event belowStart, false)
      else (S, false)
    else if belowEndOrientation = .collinear then
      if eventStart.ltB belowEnd && belowEnd.ltB eventEnd then (S.divideByMidpoint event belowEnd, false)
      else (S, false)
    else if belowStartOrientation ≠ belowEndOrientation then
      let crossPoint := toSegmentsIntersection eventStart eventEnd belowStart belowEnd
      ((S.divideByMidpoint belowEvent crossPoint).divideByMidpoint event crossPoint, false)
    else (S, false)

/-- `rene/_clipping/shaped.py` 389-509: `_detect_intersection`, recording failed `assert`s (lines 404-411, 491,
505-506, the same ones as in `linear.py`). -/
def detectIntersection (S : Shp) (belowEvent event : Nat) : Shp × Bool :=
  let r := S.detect belowEvent event
  ({ r.1 with lin := { r.1.lin with ok := r.1.lin.ok && S.lin.detectAsserts belowEvent event } }, r.2)

/-- `rene/_clipping/shaped.py` 250-262: the body of `__iter__` for a right event, always followed by
`yield event`. -/
def processRight (S : Shp) (event : Nat) : Shp :=
  let oppositeEvent := S.lin.opp event
  let S := { S with lin := { S.lin with ok := S.lin.ok && isLeft oppositeEvent } }
  match S.lin.find oppositeEvent with
  | none => S
  | some equalEvent =>
    let aboveEvent := S.lin.above equalEvent
    let belowEvent := S.lin.below equalEvent
    let S := { S with lin := S.lin.remove equalEvent }
    match belowEvent, aboveEvent with
    | some b, some a => (S.detectIntersection b a).1
    | _, _ => S

/-- `rene/_clipping/shaped.py` 268-272: the first `if` for a left event. -/
def checkAbove (op : ShpOp) (S : Shp) (event : Nat) (aboveEvent belowEvent : Option Nat) : Shp :=
  match aboveEvent with
  | some a =>
    let r := S.detectIntersection event a
    if r.2 then (r.1.computeFields op event belowEvent).computeFields op a (some event) else r.1
  | none => S

/-- `rene/_clipping/shaped.py` 273-280: the second `if` for a left event. -/
def checkBelow (op : ShpOp) (S : Shp) (event : Nat) (belowEvent : Option Nat) : Shp :=
  match belowEvent with
  | some b =>
    let r := S.detectIntersection b event
    if r.2 then (r.1.computeFields op b (r.1.lin.below b)).computeFields op event (some b) else r.1
  | none => S

/-- `rene/_clipping/shaped.py` 263-281: the body of `__iter__` for a left event; the second component tells
whether the event is yielded. -/
def processLeft (op : ShpOp) (S : Shp) (event : Nat) : Shp × Bool :=
  match S.lin.find event with
  | some _ => (S, false)
  | none =>
    let S := { S with lin := S.lin.add event }
    let belowEvent := S.lin.below event
    let S := S.computeFields op event belowEvent
    let aboveEvent := S.lin.above event
    let S := S.checkAbove op event aboveEvent belowEvent
    (S.checkBelow op event belowEvent, true)

/-- `rene/_clipping/shaped.py` 244-249: the numbering of the start points of the popped events. -/
def number (S : Shp) (event : Nat) : Shp :=
  let S := if S.lin.start S.currentFirst ≠ S.lin.start event
    then { S with currentFirst := event, currentId := S.currentId + 1 } else S
  { S with startsIds := S.startsIds.set event (some S.currentId) }

/-- `rene/_clipping/shaped.py` 241-281: one iteration of `__iter__` for the popped event. -/
def process (op : ShpOp) (S : Shp) (event : Nat) : Shp × Bool :=
  let S := { S with lin := { S.lin with queue := S.lin.queue.erase event, ok := S.lin.ok && S.lin.queueOk } }
  let S := S.number event
  if isLeft event then S.processLeft op event else (S.processRight event, true)

/-- `rene/_clipping/shaped.py` 241-281 together with the `for event in operation` loops of its consumers
(`rene/_clipping/difference.py` 749-753 and the like; `list(operation)` in `union.py` and
`symmetric_difference.py`, which is the loop which never stops).  `fuel` bounds the number of iterations, see
`Lin.fuel`. -/
def loop (op : ShpOp) (stop : Point → Bool) : Nat → Shp → List Nat → Shp × List Nat
  | 0, S, events => (S, events)
  | fuel + 1, S, events =>
    match S.lin.popEvent with
    | none => (S, events)
    | some event =>
      let r := S.process op event
      if r.2 then
        if stop (r.1.lin.start event) then (r.1, events)
        else loop op stop fuel r.1 (events ++ [event])
      else loop op stop fuel r.1 events

/-- `rene/_clipping/shaped.py` 35-61, 185-236, 797-811: `from_segments_iterables`, `__init__` and
`_populate_with_segments` (which is the one of `mixed.py`).  When there are no events `currentFirst` is
`UNDEFINED_EVENT`, which is never used. -/
def init (first second : List Segment) : Shp :=
  let M := Mix.init first second
  let count := first.length + second.length
  { lin := M.lin
    interior := M.interior
    other := M.other
    fromResult := M.fromResult
    kinds := List.replicate count .none
    belowFromResult := List.replicate count none
    startsIds := List.replicate (2 * count) none
    currentFirst := M.lin.popEvent.getD 0
    currentId := 0 }

/-- `rene/_clipping/shaped.py` 636-639: `_is_event_from_result`. -/
def isFromResult (S : Shp) (event : Nat) : Bool := S.fromResult.getD (S.lin.toLeft event / 2) false

/-- `rene/_clipping/shaped.py` 76: insertion of an event into a sorted list. -/
def insertEvent (S : Shp) (event : Nat) : List Nat → List Nat
  | [] => [event]
  | x :: rest => if S.lin.queueLt x event then x :: S.insertEvent event rest else event :: x :: rest

/-- `rene/_clipping/shaped.py` 76: `events.sort(key=self._events_queue_data.key)`; the keys compare as in the
queue.  A sort by insertion: the order of the keys of different events is strict, so all sorts agree. -/
def sortEvents (S : Shp) : List Nat → List Nat
  | [] => []
  | event :: rest => S.insertEvent event (S.sortEvents rest)

/-- `rene/_clipping/shaped.py` 587-610: the successors of the events with a common start, `rights` right ones
followed by `lefts` left ones, the first of which has position `offset`. -/
def connectivityBlock (offset rights lefts : Nat) : List Nat :=
  (if rights = 0 then [] else
    (List.range (rights - 1)).map (fun i => offset + i + 1) ++
      [if lefts = 0 then offset else offset + rights + lefts - 1]) ++
  (if lefts = 0 then [] else
    (if rights = 0 then offset + rights + lefts - 1 else offset) ::
      (List.range (lefts - 1)).map fun i => offset + rights + i)

/-- `rene/_clipping/shaped.py` 571-611: `_events_to_connectivity`, the loop from the position `offset`, at
which `events` are left; `fuel` bounds the number of iterations. -/
def connectivityLoop (S : Shp) : Nat → Nat → List Nat → List Nat
  | 0, _, _ => []
  | _ + 1, _, [] => []
  | fuel + 1, offset, event :: rest =>
    let current := S.lin.start event
    let rights := (event :: rest).takeWhile fun x => decide (S.lin.start x = current) && !isLeft x
    let others := (event :: rest).dropWhile fun x => decide (S.lin.start x = current) && !isLeft x
    let lefts := others.takeWhile fun x => decide (S.lin.start x = current)
    let others := others.dropWhile fun x => decide (S.lin.start x = current)
    connectivityBlock offset rights.length lefts.length ++
      S.connectivityLoop fuel (offset + rights.length + lefts.length) others

/-- `rene/_clipping/shaped.py` 571-611: `_events_to_connectivity`. -/
def connectivity (S : Shp) (events : List Nat) : List Nat := S.connectivityLoop events.length 0 events

/-- `rene/_clipping/shaped.py` 820-829: the loop of `_to_next_event_id`; `fuel` bounds the number of
iterations. -/
def nextEventIdFrom (processed : List Bool) (connectivity : List Nat) (eventId : Nat) : Nat → Nat → Option Nat
  | 0, _ => none
  | fuel + 1, candidate =>
    let candidate := connectivity.getD candidate 0
    if !processed.getD candidate false then some candidate
    else if candidate = eventId then none
    else nextEventIdFrom processed connectivity eventId fuel candidate

/-- `rene/_clipping/shaped.py` 813-829: `_to_next_event_id`. -/
def nextEventId (processed : List Bool) (connectivity : List Nat) (eventId : Nat) : Option Nat :=
  nextEventIdFrom processed connectivity eventId connectivity.length eventId

/-- `rene/_clipping/shaped.py` 763-764: `_to_end_id`; `_unique_visited_endpoints_count` stands for
`UNDEFINED_INDEX`, which is not an index. -/
def endId (S : Shp) (event : Nat) : Nat := (S.startsIds.getD (S.lin.opp event) none).getD (S.currentId + 1)

/-- `rene/_clipping/shaped.py` 773-774: `_to_start_id`. -/
def startId (S : Shp) (event : Nat) : Nat := (S.startsIds.getD event none).getD (S.currentId + 1)

/-- `rene/_clipping/shaped.py` 733-754: the loop of `_to_contour_events`; `fuel` bounds the number of
iterations, a contour which is not finished by then counts as a failed `assert`. -/
def contourLoop (S : Shp) (events : List Nat) (eventsIds : List (Option Nat)) (connectivity : List Nat)
    (processed : List Bool) (contourStart : Point) :
    Nat → Nat → List Nat → List (Option Nat) → Except Err (List Nat)
  | 0, _, _, _ => .error .assertionError
  | fuel + 1, cursor, result, positions =>
    if S.lin.end cursor = contourStart then .ok result else
    let previous := positions.getD (S.endId cursor) none
    if previous = some 0 then .error .assertionError else
    let result' := match previous with
      | none => result
      | some position => result.take position
    let positions' := match previous with
      | none => positions.set (S.endId cursor) (some result.length)
      | some _ => positions
    match nextEventId processed connectivity ((eventsIds.getD (S.lin.opp cursor) none).getD 0) with
    | none => .ok result'
    | some eventId =>
      let cursor' := events.getD eventId 0
      S.contourLoop events eventsIds connectivity processed contourStart fuel cursor' (result' ++ [cursor'])
        positions'

/-- `rene/_clipping/shaped.py` 716-761: `_to_contour_events`.  The array of positions is full of
`UNDEFINED_INDEX` before and after the call (all the positions set are reset, which is what the last `assert`
checks), so it is not passed around. -/
def contourEvents (S : Shp) (events : List Nat) (eventsIds : List (Option Nat)) (connectivity : List Nat)
    (processed : List Bool) (event : Nat) : Except Err (List Nat) :=
  if !isLeft event then .error .assertionError else
  S.contourLoop events eventsIds connectivity processed (S.lin.start event) (events.length + 1) event [event]
    ((List.replicate (S.currentId + 1) none).set (S.startId event) (some 0))

/-- `rene/_clipping/shaped.py` 86-97: the lists filled by the loop of `reduce_events`. -/
structure Asm where
  processed : List Bool
  inToOut : List Bool
  contoursIds : List (Option Nat)
  internal : List Bool
  depths : List Nat
  holes : List (List Nat)
  parents : List (Option Nat)
  vertices : List (List Point)
  deriving Repr, DecidableEq

/-- `rene/_clipping/shaped.py` 374-379: the end of `_compute_relations`, the new contour. -/
def Asm.push (a : Asm) (internal : Bool) (depth : Nat) (parent : Option Nat) : Asm :=
  { a with
    holes := a.holes ++ [[]]
    parents := a.parents ++ [parent]
    depths := a.depths ++ [depth]
    internal := a.internal ++ [internal] }

/-- `rene/_clipping/shaped.py` 363, 369: a hole is registered. -/
def Asm.addHole (a : Asm) (contourId hole : Nat) : Asm :=
  { a with holes := a.holes.set contourId (a.holes.getD contourId [] ++ [hole]) }

/-- `rene/_clipping/shaped.py` 341-379: `_compute_relations`.  An `UNDEFINED_INDEX` which would be used as an
index counts as an `IndexError`. -/
def computeRelations (S : Shp) (eventsIds : List (Option Nat)) (a : Asm) (event contourId : Nat) :
    Except Err Asm :=
  match S.belowFromResult.getD (event / 2) none with
  | none => .ok (a.push false 0 none)
  | some below =>
    match eventsIds.getD below none with
    | none => .error .indexError
    | some belowId =>
      match a.contoursIds.getD belowId none with
      | none => .error .indexError
      | some belowContour =>
        if !a.inToOut.getD belowId false then
          if !a.internal.getD belowContour false then
            .ok ((a.addHole belowContour contourId).push true (a.depths.getD belowContour 0 + 1)
              (some belowContour))
          else .ok (a.push false 0 none)
        else if a.internal.getD belowContour false then
          match a.parents.getD belowContour none with
          | none => .error .indexError
          | some parent =>
            .ok ((a.addHole parent contourId).push true (a.depths.getD belowContour 0) (some parent))
        else .ok (a.push false 0 none)

/-- `rene/_clipping/shaped.py` 693-707: the body of the loop of `_process_contour_events`. -/
def processContourEvent (S : Shp) (eventsIds : List (Option Nat)) (contourId : Nat) (a : Asm) (event : Nat) :
    Asm :=
  let id := (eventsIds.getD event none).getD 0
  let oppositeId := (eventsIds.getD (S.lin.opp event) none).getD 0
  let a := { a with processed := (a.processed.set id true).set oppositeId true }
  if isLeft event then
    { a with inToOut := a.inToOut.set id false, contoursIds := a.contoursIds.set id (some contourId) }
  else
    { a with
      inToOut := a.inToOut.set oppositeId true
      contoursIds := a.contoursIds.set oppositeId (some contourId) }

/-- `rene/_clipping/shaped.py` 683-707: `_process_contour_events`. -/
def processContourEvents (S : Shp) (eventsIds : List (Option Nat)) (contourId : Nat) (a : Asm)
    (events : List Nat) : Asm := events.foldl (S.processContourEvent eventsIds contourId) a

/-- `rene/_clipping/shaped.py` 381-387: the vertices before `shrink_collinear_vertices`. -/
def rawVertices (S : Shp) (events : List Nat) : List Point :=
  S.lin.start (events.headD 0) :: events.dropLast.map fun event => S.lin.end event

/-- `rene/_clipping/shaped.py` 381-387: `_contour_events_to_vertices`, with the `assert` of
`rene/_utils.py` 349. -/
def contourVertices (S : Shp) (events : List Nat) : Except Err (List Point) :=
  if (S.rawVertices events).length < 3 then .error .assertionError
  else .ok (shrinkCollinearVertices (S.rawVertices events))

/-- `rene/_clipping/shaped.py` 129: `vertices[:1] + vertices[:0:-1]`. -/
def reverseVertices (vertices : List Point) : List Point := vertices.take 1 ++ (vertices.drop 1).reverse

/-- `rene/_clipping/shaped.py` 98-130: the body of the loop of `reduce_events`. -/
def assembleStep (S : Shp) (events : List Nat) (eventsIds : List (Option Nat)) (connectivity : List Nat)
    (a : Asm) (eventId event : Nat) : Except Err Asm :=
  if a.processed.getD eventId false then .ok a else
  let contourId := a.vertices.length
  match S.computeRelations eventsIds a event contourId with
  | .error e => .error e
  | .ok a =>
    match S.contourEvents events eventsIds connectivity a.processed event with
    | .error e => .error e
    | .ok contour =>
      let a := S.processContourEvents eventsIds contourId a contour
      match S.contourVertices contour with
      | .error e => .error e
      | .ok vertices =>
        let vertices := if a.depths.getD contourId 0 % 2 = 1 then reverseVertices vertices else vertices
        .ok { a with vertices := a.vertices ++ [vertices] }

/-- `rene/_clipping/shaped.py` 98-130: the loop of `reduce_events` from the position `eventId`. -/
def assemble (S : Shp) (events : List Nat) (eventsIds : List (Option Nat)) (connectivity : List Nat) :
    Asm → Nat → List Nat → Except Err Asm
  | a, _, [] => .ok a
  | a, eventId, event :: rest =>
    match S.assembleStep events eventsIds connectivity a eventId event with
    | .error e => .error e
    | .ok a => S.assemble events eventsIds connectivity a (eventId + 1) rest

/-- `rene/_clipping/shaped.py` 137-142, 147-153: a polygon of the result; no class checks the holes. -/
def Asm.polygon (a : Asm) (contourId : Nat) : Except Err Polygon := do
  let border ← Contour.new (a.vertices.getD contourId [])
  let holes ← (a.holes.getD contourId []).mapM fun hole => Contour.new (a.vertices.getD hole [])
  return ⟨border, holes⟩

/-- `rene/_clipping/shaped.py` 131-155: the polygons of the result. -/
def Asm.polygons (a : Asm) : Except Err (List Polygon) := do
  let polygons ← (List.range a.vertices.length).mapM fun contourId =>
    if a.internal.getD contourId false then (a.holes.getD contourId []).mapM a.polygon
    else (a.polygon contourId).map ([·])
  return polygons.flatten

/-- `rene/_clipping/shaped.py` 77-80: the positions of the events. -/
def toEventsIds (count : Nat) (events : List Nat) : List (Option Nat) :=
  events.zipIdx.foldl (fun ids p => ids.set p.1 (some p.2)) (List.replicate count none)

/-- `rene/_clipping/shaped.py` 86-97: the initial lists. -/
def Asm.init (count : Nat) : Asm :=
  { processed := List.replicate count false
    inToOut := List.replicate count false
    contoursIds := List.replicate count none
    internal := [], depths := [], holes := [], parents := [], vertices := [] }

/-- `rene/_clipping/shaped.py` 64-155: `reduce_events`. -/
def reduceEvents (S : Shp) (events : List Nat) : Except Err (List Polygon) :=
  let events := events.filter S.isFromResult
  if events = [] then .ok [] else
  let events := S.sortEvents events
  let eventsIds := toEventsIds S.lin.endpoints.length events
  if !events.all (fun event => (eventsIds.getD (S.lin.opp event) none).isSome) then .error .assertionError else
  match S.assemble events eventsIds (S.connectivity events) (Asm.init events.length) 0 events with
  | .error e => .error e
  | .ok a => a.polygons

end Shp

/-- Running an operation: `from_segments_iterables`, the loop over the events and `reduce_events`; a failed
`assert` of the sweep is reported first. -/
def ShpOp.run (op : ShpOp) (stop : Point → Bool) (first second : List Segment) : Except Err (List Polygon) :=
  let r := (Shp.init first second).loop op stop (Lin.fuel (first.length + second.length)) []
  if !r.1.lin.ok then .error .assertionError else r.1.reduceEvents r.2

/-- The segments of several polygons: `rene/_clipping/difference.py` 125-130 and the like. -/
def orientedSegments (polygons : List Polygon) : List Segment :=
  polygons.flatMap Polygon.correctlyOrientedSegments

/-- `rene/_clipping/difference.py` 703-759: `subtract_polygon_from_polygon`. -/
def subtractPolygonFromPolygon (minuend subtrahend : Polygon) : Except Err Geom := do
  let minuendBox := minuend.boundingBox
  if doBoxesHaveNoCommonArea minuendBox subtrahend.boundingBox then return .polygon minuend
  let polygons ← ShpOp.difference.run (fun p => decide (p.x > minuendBox.maxX))
    minuend.correctlyOrientedSegments
    (subtrahend.correctlyOrientedSegments.filter fun s => s.meetsRange minuendBox.minX minuendBox.maxX)
  collectMaybeEmptyPolygons polygons

/-- `rene/_clipping/difference.py` 253-321: `subtract_multipolygon_from_polygon`. -/
def subtractMultipolygonFromPolygon (minuend : Polygon) (subtrahend : Multipolygon) : Except Err Geom := do
  let minuendBox := minuend.boundingBox
  if doBoxesHaveNoCommonArea minuendBox subtrahend.boundingBox then return .polygon minuend
  let subtrahendCommon := subtrahend.polygons.filter fun p => doBoxesHaveCommonArea p.boundingBox minuendBox
  if subtrahendCommon = [] then return .polygon minuend
  let polygons ← ShpOp.difference.run (fun p => decide (p.x > minuendBox.maxX))
    minuend.correctlyOrientedSegments
    ((orientedSegments subtrahendCommon).filter fun s => s.meetsRange minuendBox.minX minuendBox.maxX)
  collectMaybeEmptyPolygons polygons

/-- `rene/_clipping/difference.py` 549-625: `subtract_polygon_from_multipolygon`. -/
def subtractPolygonFromMultipolygon (minuend : Multipolygon) (subtrahend : Polygon) : Except Err Geom := do
  let subtrahendBox := subtrahend.boundingBox
  if doBoxesHaveNoCommonArea minuend.boundingBox subtrahendBox then return .multipolygon minuend
  let minuendCommon := minuend.polygons.filter fun p => doBoxesHaveCommonArea p.boundingBox subtrahendBox
  if minuendCommon = [] then return .multipolygon minuend
  let maxX := listMax (minuendCommon.map fun p => p.boundingBox.maxX)
  let minX := listMin (minuendCommon.map fun p => p.boundingBox.minX)
  let polygons ← ShpOp.difference.run (fun p => decide (p.x > maxX)) (orientedSegments minuendCommon)
    (subtrahend.correctlyOrientedSegments.filter fun s => s.meetsRange minX maxX)
  collectMaybeEmptyPolygons (polygons ++
    minuend.polygons.filter fun p => !doBoxesHaveCommonArea p.boundingBox subtrahendBox)

/-- `rene/_clipping/difference.py` 69-160: `subtract_multipolygon_from_multipolygon`. -/
def subtractMultipolygonFromMultipolygon (minuend subtrahend : Multipolygon) : Except Err Geom := do
  let minuendBox := minuend.boundingBox
  let subtrahendBox := subtrahend.boundingBox
  if doBoxesHaveNoCommonArea minuendBox subtrahendBox then return .multipolygon minuend
  let minuendCommon := minuend.polygons.filter fun p => doBoxesHaveCommonArea p.boundingBox subtrahendBox
  if minuendCommon = [] then return .multipolygon minuend
  let subtrahendCommon := subtrahend.polygons.filter fun p => doBoxesHaveCommonArea p.boundingBox minuendBox
  if subtrahendCommon = [] then return .multipolygon minuend
  let maxX := listMax (minuendCommon.map fun p => p.boundingBox.maxX)
  let minX := listMin (minuendCommon.map fun p => p.boundingBox.minX)
  let polygons ← ShpOp.difference.run (fun p => decide (p.x > maxX)) (orientedSegments minuendCommon)
    ((orientedSegments subtrahendCommon).filter fun s => s.meetsRange minX maxX)
  collectMaybeEmptyPolygons (polygons ++
    minuend.polygons.filter fun p => !doBoxesHaveCommonArea p.boundingBox subtrahendBox)

/-- `rene/_clipping/intersection.py` 913-971: `intersect_polygon_with_polygon`. -/
def intersectPolygonWithPolygon (first second : Polygon) : Except Err Geom := do
  let firstBox := first.boundingBox
  let secondBox := second.boundingBox
  if doBoxesHaveNoCommonArea firstBox secondBox then return .empty
  let maxMinX := max firstBox.minX secondBox.minX
  let minMaxX := min firstBox.maxX secondBox.maxX
  let polygons ← ShpOp.intersection.run (fun p => decide (p.x > minMaxX))
    (first.correctlyOrientedSegments.filter fun s => s.meetsRange maxMinX minMaxX)
    (second.correctlyOrientedSegments.filter fun s => s.meetsRange maxMinX minMaxX)
  collectMaybeEmptyPolygons polygons

/-- `rene/_clipping/intersection.py` 747-829: `intersect_polygon_with_multipolygon`. -/
def intersectPolygonWithMultipolygon (first : Polygon) (second : Multipolygon) : Except Err Geom := do
  let firstBox := first.boundingBox
  let secondBox := second.boundingBox
  if doBoxesHaveNoCommonArea firstBox secondBox then return .empty
  let secondCommon := second.polygons.filter fun p => doBoxesHaveCommonArea p.boundingBox firstBox
  if secondCommon = [] then return .empty
  let maxMinX := max firstBox.minX (listMin (secondCommon.map fun p => p.boundingBox.minX))
  let minMaxX := min firstBox.maxX (listMax (secondCommon.map fun p => p.boundingBox.maxX))
  let polygons ← ShpOp.intersection.run (fun p => decide (p.x > minMaxX))
    (first.correctlyOrientedSegments.filter fun s => s.meetsRange maxMinX minMaxX)
    ((orientedSegments secondCommon).filter fun s => s.meetsRange maxMinX minMaxX)
  collectMaybeEmptyPolygons polygons

/-- `rene/_clipping/intersection.py` 269-351: `intersect_multipolygon_with_polygon`. -/
def intersectMultipolygonWithPolygon (first : Multipolygon) (second : Polygon) : Except Err Geom := do
  let firstBox := first.boundingBox
  let secondBox := second.boundingBox
  if doBoxesHaveNoCommonArea firstBox secondBox then return .empty
  let firstCommon := first.polygons.filter fun p => doBoxesHaveCommonArea p.boundingBox secondBox
  if firstCommon = [] then return .empty
  let maxMinX := max (listMin (firstCommon.map fun p => p.boundingBox.minX)) secondBox.minX
  let minMaxX := min (listMax (firstCommon.map fun p => p.boundingBox.maxX)) secondBox.maxX
  let polygons ← ShpOp.intersection.run (fun p => decide (p.x > minMaxX))
    ((orientedSegments firstCommon).filter fun s => s.meetsRange maxMinX minMaxX)
    (second.correctlyOrientedSegments.filter fun s => s.meetsRange maxMinX minMaxX)
  collectMaybeEmptyPolygons polygons

/-- `rene/_clipping/intersection.py` 67-166: `intersect_multipolygon_with_multipolygon`. -/
def intersectMultipolygonWithMultipolygon (first second : Multipolygon) : Except Err Geom := do
  let firstBox := first.boundingBox
  let secondBox := second.boundingBox
  if doBoxesHaveNoCommonArea firstBox secondBox then return .empty
  let firstCommon := first.polygons.filter fun p => doBoxesHaveCommonArea p.boundingBox secondBox
  if firstCommon = [] then return .empty
  let secondCommon := second.polygons.filter fun p => doBoxesHaveCommonArea p.boundingBox firstBox
  if secondCommon = [] then return .empty
  let maxMinX := max (listMin (firstCommon.map fun p => p.boundingBox.minX))
    (listMin (secondCommon.map fun p => p.boundingBox.minX))
  let minMaxX := min (listMax (firstCommon.map fun p => p.boundingBox.maxX))
    (listMax (secondCommon.map fun p => p.boundingBox.maxX))
  let polygons ← ShpOp.intersection.run (fun p => decide (p.x > minMaxX))
    ((orientedSegments firstCommon).filter fun s => s.meetsRange maxMinX minMaxX)
    ((orientedSegments secondCommon).filter fun s => s.meetsRange maxMinX minMaxX)
  collectMaybeEmptyPolygons polygons

/-- `rene/_clipping/union.py` 420-446: `unite_polygon_with_polygon`. -/
def unitePolygonWithPolygon (first second : Polygon) : Except Err Geom := do
  if doBoxesHaveNoCommonContinuum first.boundingBox second.boundingBox then
    return .multipolygon (← Multipolygon.new [first, second])
  let polygons ← ShpOp.union.run (fun _ => false) first.correctlyOrientedSegments
    second.correctlyOrientedSegments
  collectNonEmptyPolygons polygons

/-- `rene/_clipping/union.py` 364-417: `unite_polygon_with_multipolygon`. -/
def unitePolygonWithMultipolygon (first : Polygon) (second : Multipolygon) : Except Err Geom := do
  let firstBox := first.boundingBox
  if doBoxesHaveNoCommonContinuum firstBox second.boundingBox then
    return .multipolygon (← Multipolygon.new (first :: second.polygons))
  let secondCommon := second.polygons.filter fun p => doBoxesHaveCommonContinuum p.boundingBox firstBox
  if secondCommon = [] then return .multipolygon (← Multipolygon.new (first :: second.polygons))
  let polygons ← ShpOp.union.run (fun _ => false) first.correctlyOrientedSegments
    (orientedSegments secondCommon)
  collectNonEmptyPolygons (polygons ++
    second.polygons.filter fun p => !doBoxesHaveCommonContinuum p.boundingBox firstBox)

/-- `rene/_clipping/union.py` 129-179: `unite_multipolygon_with_polygon`. -/
def uniteMultipolygonWithPolygon (first : Multipolygon) (second : Polygon) : Except Err Geom := do
  let secondBox := second.boundingBox
  if doBoxesHaveNoCommonContinuum first.boundingBox secondBox then
    return .multipolygon (← Multipolygon.new (first.polygons ++ [second]))
  let firstCommon := first.polygons.filter fun p => doBoxesHaveCommonContinuum p.boundingBox secondBox
  if firstCommon = [] then return .multipolygon (← Multipolygon.new (first.polygons ++ [second]))
  let polygons ← ShpOp.union.run (fun _ => false) (orientedSegments firstCommon)
    second.correctlyOrientedSegments
  collectNonEmptyPolygons (polygons ++
    first.polygons.filter fun p => !doBoxesHaveCommonContinuum p.boundingBox secondBox)

/-- `rene/_clipping/union.py` 50-126: `unite_multipolygon_with_multipolygon`. -/
def uniteMultipolygonWithMultipolygon (first second : Multipolygon) : Except Err Geom := do
  let firstBox := first.boundingBox
  let secondBox := second.boundingBox
  if doBoxesHaveNoCommonContinuum firstBox secondBox then
    return .multipolygon (← Multipolygon.new (first.polygons ++ second.polygons))
  let firstCommon := first.polygons.filter fun p => doBoxesHaveCommonContinuum p.boundingBox secondBox
  if firstCommon = [] then return .multipolygon (← Multipolygon.new (first.polygons ++ second.polygons))
  let secondCommon := second.polygons.filter fun p => doBoxesHaveCommonContinuum p.boundingBox firstBox
  if secondCommon = [] then return .multipolygon (← Multipolygon.new (first.polygons ++ second.polygons))
  let polygons ← ShpOp.union.run (fun _ => false) (orientedSegments firstCommon)
    (orientedSegments secondCommon)
  collectNonEmptyPolygons (polygons ++
    (first.polygons.filter fun p => !doBoxesHaveCommonContinuum p.boundingBox secondBox) ++
    second.polygons.filter fun p => !doBoxesHaveCommonContinuum p.boundingBox firstBox)

/-- `rene/_clipping/symmetric_difference.py` 49-87: `symmetric_subtract_polygon_from_polygon`. -/
def symmetricSubtractPolygonFromPolygon (minuend subtrahend : Polygon) : Except Err Geom := do
  if doBoxesHaveNoCommonContinuum minuend.boundingBox subtrahend.boundingBox then
    return .multipolygon (← Multipolygon.new [minuend, subtrahend])
  let polygons ← ShpOp.symmetricDifference.run (fun _ => false) minuend.correctlyOrientedSegments
    subtrahend.correctlyOrientedSegments
  collectMaybeEmptyPolygons polygons

/-- `rene/_clipping/symmetric_difference.py` 153-215: `symmetric_subtract_multipolygon_from_polygon`. -/
def symmetricSubtractMultipolygonFromPolygon (minuend : Polygon) (subtrahend : Multipolygon) :
    Except Err Geom := do
  let minuendBox := minuend.boundingBox
  if doBoxesHaveNoCommonContinuum minuendBox subtrahend.boundingBox then
    return .multipolygon (← Multipolygon.new (minuend :: subtrahend.polygons))
  let subtrahendCommon := subtrahend.polygons.filter fun p =>
    doBoxesHaveCommonContinuum p.boundingBox minuendBox
  if subtrahendCommon = [] then return .multipolygon (← Multipolygon.new (minuend :: subtrahend.polygons))
  let polygons ← ShpOp.symmetricDifference.run (fun _ => false) minuend.correctlyOrientedSegments
    (orientedSegments subtrahendCommon)
  collectMaybeEmptyPolygons (polygons ++
    subtrahend.polygons.filter fun p => !doBoxesHaveCommonContinuum p.boundingBox minuendBox)

/-- `rene/_clipping/symmetric_difference.py` 90-150: `symmetric_subtract_polygon_from_multipolygon`. -/
def symmetricSubtractPolygonFromMultipolygon (minuend : Multipolygon) (subtrahend : Polygon) :
    Except Err Geom := do
  let subtrahendBox := subtrahend.boundingBox
  if doBoxesHaveNoCommonContinuum minuend.boundingBox subtrahendBox then
    return .multipolygon (← Multipolygon.new (minuend.polygons ++ [subtrahend]))
  let minuendCommon := minuend.polygons.filter fun p =>
    doBoxesHaveCommonContinuum p.boundingBox subtrahendBox
  if minuendCommon = [] then return .multipolygon (← Multipolygon.new (minuend.polygons ++ [subtrahend]))
  let polygons ← ShpOp.symmetricDifference.run (fun _ => false) (orientedSegments minuendCommon)
    subtrahend.correctlyOrientedSegments
  collectMaybeEmptyPolygons (polygons ++
    minuend.polygons.filter fun p => !doBoxesHaveCommonContinuum p.boundingBox subtrahendBox)

/-- `rene/_clipping/symmetric_difference.py` 218-305: `symmetric_subtract_multipolygon_from_multipolygon`. -/
def symmetricSubtractMultipolygonFromMultipolygon (minuend subtrahend : Multipolygon) :
    Except Err Geom := do
  let minuendBox := minuend.boundingBox
  let subtrahendBox := subtrahend.boundingBox
  if doBoxesHaveNoCommonContinuum minuendBox subtrahendBox then
    return .multipolygon (← Multipolygon.new (minuend.polygons ++ subtrahend.polygons))
  let minuendCommon := minuend.polygons.filter fun p =>
    doBoxesHaveCommonContinuum p.boundingBox subtrahendBox
  if minuendCommon = [] then
    return .multipolygon (← Multipolygon.new (minuend.polygons ++ subtrahend.polygons))
  let subtrahendCommon := subtrahend.polygons.filter fun p =>
    doBoxesHaveCommonContinuum p.boundingBox minuendBox
  if subtrahendCommon = [] then
    return .multipolygon (← Multipolygon.new (minuend.polygons ++ subtrahend.polygons))
  let polygons ← ShpOp.symmetricDifference.run (fun _ => false) (orientedSegments minuendCommon)
    (orientedSegments subtrahendCommon)
  collectMaybeEmptyPolygons (polygons ++
    (minuend.polygons.filter fun p => !doBoxesHaveCommonContinuum p.boundingBox subtrahendBox) ++
    subtrahend.polygons.filter fun p => !doBoxesHaveCommonContinuum p.boundingBox minuendBox)

end Rene
