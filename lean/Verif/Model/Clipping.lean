import Verif.Model.Geometries
import Mathlib.Data.List.Sort

/-! Model of the sweep-free boolean operations of `rene/_clipping`. -/

namespace Rene

/-- Python `max(a, b)` on points: returns `b` only when `b > a`. -/
def pyMax (a b : Point) : Point := if b.gtB a then b else a

/-- Python `min(a, b)` on points: returns `b` only when `b < a`. -/
def pyMin (a b : Point) : Point := if b.ltB a then b else a

/-- `rene/_clipping/intersection.py` 1025-1051:
`intersect_segments_with_common_continuum_bounding_boxes`. -/
def intersectSegmentsWithCommonContinuum (start end_ otherStart otherEnd : Point) : Option Segment :=
  let a := toSortedPair start end_
  let b := toSortedPair otherStart otherEnd
  if (a.1 = b.1 ∨ orient a.2 a.1 b.1 = .collinear) ∧ (a.2 = b.2 ∨ orient a.2 a.1 b.2 = .collinear)
  then some ⟨pyMax a.1 b.1, pyMin a.2 b.2⟩
  else none

/-- `rene/_clipping/intersection.py` 1221-1241: `intersect_segment_with_segment`
(`Segment.__and__` for a segment). -/
def intersectSegmentWithSegment (first second : Segment) : Geom :=
  if doBoxesHaveNoCommonContinuum first.boundingBox second.boundingBox then .empty
  else match intersectSegmentsWithCommonContinuum first.start first.end second.start second.end with
    | none => .empty
    | some s => .segment s

/-- `rene/_clipping/intersection.py` 1146-1163: the list comprehension of
`intersect_segment_with_multisegmental`. -/
def intersectSegmentWithSegments (first : Segment) (segments : List Segment) : List Segment :=
  (segments.filter fun s => doBoxesHaveCommonContinuum s.boundingBox first.boundingBox).filterMap
    fun s => intersectSegmentsWithCommonContinuum first.start first.end s.start s.end

/-- `rene/_clipping/intersection.py` 1130-1166: `intersect_segment_with_multisegmental`
(`Segment.__and__` for a contour or multisegment). -/
def intersectSegmentWithMultisegmental (first : Segment) (second : Multisegmental) : Except Err Geom :=
  collectMaybeEmptySegments (intersectSegmentWithSegments first second.segments)

/-- `rene/_clipping/intersection.py` 724-741: the list comprehension of
`intersect_multisegmental_with_segment`. -/
def intersectSegmentsWithSegment (segments : List Segment) (second : Segment) : List Segment :=
  (segments.filter fun s => doBoxesHaveCommonContinuum s.boundingBox second.boundingBox).filterMap
    fun s => intersectSegmentsWithCommonContinuum s.start s.end second.start second.end

/-- `rene/_clipping/intersection.py` 708-744: `intersect_multisegmental_with_segment`
(`Contour.__and__`, `Multisegment.__and__` for a segment). -/
def intersectMultisegmentalWithSegment (first : Multisegmental) (second : Segment) : Except Err Geom :=
  collectMaybeEmptySegments (intersectSegmentsWithSegment first.segments second)

/-- `multisegment_cls([...])` for a literal list (the constructor's length check included). -/
def newMultisegment (segments : List Segment) : Except Err Geom :=
  (Multisegment.new segments).map .multisegment

/-- `rene/_clipping/union.py` 561-610: `unite_segment_with_segment`. -/
def uniteSegmentWithSegment (first second : Segment) : Except Err Geom :=
  let f := toSortedPair first.start first.end
  let s := toSortedPair second.start second.end
  let firstStart := f.1
  let firstEnd := f.2
  let secondStart := s.1
  let secondEnd := s.2
  if firstStart = secondStart ∧ firstEnd = secondEnd then .ok (.segment first) else
  let secondStartOrientation := orient firstEnd firstStart secondStart
  let secondEndOrientation := orient firstEnd firstStart secondEnd
  if secondStartOrientation ≠ .collinear ∧ secondEndOrientation ≠ .collinear
      ∧ secondStartOrientation ≠ secondEndOrientation then
    let firstStartOrientation := orient secondStart secondEnd firstStart
    let firstEndOrientation := orient secondStart secondEnd firstEnd
    if firstStartOrientation ≠ .collinear ∧ firstEndOrientation ≠ .collinear
        ∧ firstStartOrientation ≠ firstEndOrientation then
      let crossPoint := toSegmentsIntersection firstStart firstEnd secondStart secondEnd
      newMultisegment [⟨firstStart, crossPoint⟩, ⟨crossPoint, firstEnd⟩,
        ⟨secondStart, crossPoint⟩, ⟨crossPoint, secondEnd⟩]
    else newMultisegment [first, second]
  else if secondStartOrientation = .collinear ∧ secondEndOrientation = .collinear
      ∧ secondStart.leB firstEnd ∧ firstStart.leB secondEnd then
    .ok (.segment ⟨pyMin firstStart secondStart, pyMax firstEnd secondEnd⟩)
  else newMultisegment [first, second]

/-- `rene/_clipping/difference.py` 917-995: `subtract_segment_from_segment`. -/
def subtractSegmentFromSegment (minuend subtrahend : Segment) : Except Err Geom :=
  let m := toSortedPair minuend.start minuend.end
  let s := toSortedPair subtrahend.start subtrahend.end
  let minuendStart := m.1
  let minuendEnd := m.2
  let subtrahendStart := s.1
  let subtrahendEnd := s.2
  if minuendStart = subtrahendStart ∧ minuendEnd = subtrahendEnd then .ok .empty else
  let subtrahendStartOrientation := orient minuendEnd minuendStart subtrahendStart
  let subtrahendEndOrientation := orient minuendEnd minuendStart subtrahendEnd
  if subtrahendStartOrientation ≠ .collinear ∧ subtrahendEndOrientation ≠ .collinear
      ∧ subtrahendStartOrientation ≠ subtrahendEndOrientation then
    let minuendStartOrientation := orient subtrahendStart subtrahendEnd minuendStart
    let minuendEndOrientation := orient subtrahendStart subtrahendEnd minuendEnd
    if minuendStartOrientation ≠ .collinear ∧ minuendEndOrientation ≠ .collinear
        ∧ minuendStartOrientation ≠ minuendEndOrientation then
      let crossPoint := toSegmentsIntersection minuendStart minuendEnd subtrahendStart subtrahendEnd
      newMultisegment [⟨minuendStart, crossPoint⟩, ⟨crossPoint, minuendEnd⟩]
    else .ok (.segment minuend)
  else if subtrahendStartOrientation = .collinear ∧ subtrahendEndOrientation = .collinear
      ∧ subtrahendStart.ltB minuendEnd ∧ minuendStart.ltB subtrahendEnd then
    if minuendStart = subtrahendStart then
      if subtrahendEnd.ltB minuendEnd then .ok (.segment ⟨subtrahendEnd, minuendEnd⟩)
      else .ok .empty
    else if minuendEnd = subtrahendEnd then
      if subtrahendStart.ltB minuendStart then .ok .empty
      else .ok (.segment ⟨subtrahendStart, minuendStart⟩)
    else if minuendStart.ltB subtrahendStart then
      if subtrahendEnd.ltB minuendEnd then
        newMultisegment [⟨minuendStart, subtrahendStart⟩, ⟨subtrahendEnd, minuendEnd⟩]
      else .ok (.segment ⟨minuendStart, subtrahendStart⟩)
    else if subtrahendStart.ltB minuendStart then
      if minuendEnd.ltB subtrahendEnd then .ok .empty
      else .ok (.segment ⟨subtrahendEnd, minuendEnd⟩)
    else .ok (.segment minuend)
  else .ok (.segment minuend)

/-- `rene/_clipping/symmetric_difference.py` 308-380: `symmetric_subtract_segment_from_segment`. -/
def symmetricSubtractSegmentFromSegment (minuend subtrahend : Segment) : Except Err Geom :=
  let m := toSortedPair minuend.start minuend.end
  let s := toSortedPair subtrahend.start subtrahend.end
  let minuendStart := m.1
  let minuendEnd := m.2
  let subtrahendStart := s.1
  let subtrahendEnd := s.2
  if subtrahendStart = minuendStart ∧ subtrahendEnd = minuendEnd then .ok .empty else
  let subtrahendStartOrientation := orient minuendEnd minuendStart subtrahendStart
  let subtrahendEndOrientation := orient minuendEnd minuendStart subtrahendEnd
  if subtrahendStartOrientation ≠ .collinear ∧ subtrahendEndOrientation ≠ .collinear
      ∧ subtrahendStartOrientation ≠ subtrahendEndOrientation then
    let minuendStartOrientation := orient subtrahendStart subtrahendEnd minuendStart
    let minuendEndOrientation := orient subtrahendStart subtrahendEnd minuendEnd
    if minuendStartOrientation ≠ .collinear ∧ minuendEndOrientation ≠ .collinear
        ∧ minuendStartOrientation ≠ minuendEndOrientation then
      let crossPoint := toSegmentsIntersection minuendStart minuendEnd subtrahendStart subtrahendEnd
      newMultisegment [⟨minuendStart, crossPoint⟩, ⟨crossPoint, minuendEnd⟩,
        ⟨subtrahendStart, crossPoint⟩, ⟨crossPoint, subtrahendEnd⟩]
    else newMultisegment [minuend, subtrahend]
  else if subtrahendStartOrientation = .collinear ∧ subtrahendEndOrientation = .collinear then
    if minuendStart = subtrahendStart then .ok (.segment ⟨minuendEnd, subtrahendEnd⟩)
    else if minuendEnd = subtrahendEnd then .ok (.segment ⟨minuendStart, subtrahendStart⟩)
    else if minuendStart = subtrahendEnd then .ok (.segment ⟨subtrahendStart, minuendEnd⟩)
    else if minuendEnd = subtrahendStart then .ok (.segment ⟨minuendStart, subtrahendEnd⟩)
    else if subtrahendStart.ltB minuendEnd ∧ minuendStart.ltB subtrahendEnd then
      newMultisegment [⟨minuendStart, subtrahendStart⟩, ⟨subtrahendEnd, minuendEnd⟩]
    else newMultisegment [minuend, subtrahend]
  else newMultisegment [minuend, subtrahend]

/-- `rene/_utils.py` 161-162: `deduplicate` (`itertools.groupby` keys: drops consecutive repeats). -/
def deduplicate {α : Type} [DecidableEq α] : List α → List α
  | [] => []
  | [a] => [a]
  | a :: b :: rest => if a = b then deduplicate (b :: rest) else a :: deduplicate (b :: rest)

/-- `rene/_clipping/union.py` 482-548: what one non-disjoint, non-equal component contributes in
`unite_segment_with_multisegmental`: its pieces and the break points of the first segment.
`original` is the component as given, `secondStart < secondEnd` its sorted endpoints. -/
def uniteOne (firstStart firstEnd secondStart secondEnd : Point) (original : Segment) :
    List Segment × List Point :=
  let secondStartOrientation := orient firstEnd firstStart secondStart
  let secondEndOrientation := orient firstEnd firstStart secondEnd
  if secondStartOrientation = secondEndOrientation then
    if secondStartOrientation = .collinear then
      if firstStart = secondStart then
        (if firstEnd.ltB secondEnd then [⟨firstEnd, secondEnd⟩] else [], [])
      else if firstEnd = secondEnd then
        (if secondStart.ltB firstStart then [⟨secondStart, firstStart⟩] else [], [])
      else if firstStart.ltB secondStart ∧ secondStart.ltB firstEnd then
        (if firstEnd.ltB secondEnd then [⟨firstEnd, secondEnd⟩] else [], [])
      else if secondStart.ltB firstStart ∧ firstStart.ltB secondEnd then
        (⟨secondStart, firstStart⟩ ::
          (if firstEnd.ltB secondEnd then [⟨firstEnd, secondEnd⟩] else []), [])
      else ([original], [])
    else ([original], [])
  else if secondStartOrientation = .collinear then
    ([original], if firstStart.ltB secondStart ∧ secondStart.ltB firstEnd then [secondStart] else [])
  else if secondEndOrientation = .collinear then
    ([original], if firstStart.ltB secondEnd ∧ secondEnd.ltB firstEnd then [secondEnd] else [])
  else
    let firstStartOrientation := orient secondStart secondEnd firstStart
    let firstEndOrientation := orient secondStart secondEnd firstEnd
    if firstStartOrientation = .collinear then
      if secondStart.ltB firstStart ∧ firstStart.ltB secondEnd then
        ([⟨secondStart, firstStart⟩, ⟨firstStart, secondEnd⟩], [])
      else ([original], [])
    else if firstEndOrientation = .collinear then
      if secondStart.ltB firstEnd ∧ firstEnd.ltB secondEnd then
        ([⟨secondStart, firstEnd⟩, ⟨firstEnd, secondEnd⟩], [])
      else ([original], [])
    else if firstStartOrientation ≠ firstEndOrientation then
      let crossPoint := toSegmentsIntersection secondStart secondEnd firstStart firstEnd
      ([⟨secondStart, crossPoint⟩, ⟨crossPoint, secondEnd⟩], [crossPoint])
    else ([original], [])

/-- `rene/_clipping/union.py` 469-548: the loop of `unite_segment_with_multisegmental`
(278-351 of `unite_multisegmental_with_segment` is the same loop with the roles of the names
exchanged); returns `segments` and the break points of the single segment. -/
def uniteLoop (firstBox : Box) (firstStart firstEnd : Point) : List Segment → List Segment × List Point
  | [] => ([], [])
  | s :: rest =>
    if s.boundingBox.disjointWith firstBox then
      let r := uniteLoop firstBox firstStart firstEnd rest
      (s :: r.1, r.2)
    else
      let p := toSortedPair s.start s.end
      if firstStart = p.1 ∧ firstEnd = p.2 then (rest, [])
      else
        let o := uniteOne firstStart firstEnd p.1 p.2 s
        let r := uniteLoop firstBox firstStart firstEnd rest
        (o.1 ++ r.1, o.2 ++ r.2)

/-- `rene/_clipping/union.py` 551-555: consecutive pieces of a segment between break points. -/
def chainPieces (start : Point) : List Point → Point → List Segment
  | [], last => [⟨start, last⟩]
  | p :: rest, last => ⟨start, p⟩ :: chainPieces p rest last

/-- Python's `list.sort()` / `sorted` (a stable comparison sort; insertion sort gives the same list). -/
def pySorted {α : Type} (le : α → α → Bool) (l : List α) : List α :=
  l.insertionSort (fun a b => le a b = true)

/-- `rene/_clipping/union.py` 549-557: pieces of the single segment. -/
def breakSegment (first : Segment) (firstStart firstEnd : Point) (breakPoints : List Point) :
    List Segment :=
  if breakPoints ≠ [] then
    chainPieces firstStart (deduplicate (pySorted Point.leB breakPoints)) firstEnd
  else [first]

/-- `rene/_clipping/union.py` 451-558: `unite_segment_with_multisegmental`. -/
def uniteSegmentWithMultisegmental (first : Segment) (second : Multisegmental) : Except Err Geom :=
  if doBoxesHaveNoCommonContinuum first.boundingBox second.boundingBox then
    newMultisegment (first :: second.segments)
  else
    let p := toSortedPair first.start first.end
    let r := uniteLoop first.boundingBox p.1 p.2 second.segments
    collectNonEmptySegments (r.1 ++ breakSegment first p.1 p.2 r.2)

/-- `rene/_clipping/union.py` 254-361: `unite_multisegmental_with_segment`. -/
def uniteMultisegmentalWithSegment (first : Multisegmental) (second : Segment) : Except Err Geom :=
  if doBoxesHaveNoCommonContinuum first.boundingBox second.boundingBox then
    newMultisegment (first.segments ++ [second])
  else
    let p := toSortedPair second.start second.end
    let r := uniteLoop second.boundingBox p.1 p.2 first.segments
    collectNonEmptySegments (r.1 ++ breakSegment second p.1 p.2 r.2)

/-- `rene/_clipping/difference.py` 852-913: what one non-disjoint, non-equal component contributes in
`subtract_segment_from_multisegmental`. -/
def subtractFromOne (subtrahendStart subtrahendEnd minuendStart minuendEnd : Point)
    (original : Segment) : List Segment :=
  let minuendStartOrientation := orient subtrahendEnd subtrahendStart minuendStart
  let minuendEndOrientation := orient subtrahendEnd subtrahendStart minuendEnd
  if minuendStartOrientation ≠ .collinear ∧ minuendEndOrientation ≠ .collinear
      ∧ minuendStartOrientation ≠ minuendEndOrientation then
    let subtrahendStartOrientation := orient minuendStart minuendEnd subtrahendStart
    let subtrahendEndOrientation := orient minuendStart minuendEnd subtrahendEnd
    if subtrahendStartOrientation ≠ .collinear ∧ subtrahendEndOrientation ≠ .collinear
        ∧ subtrahendStartOrientation ≠ subtrahendEndOrientation then
      let crossPoint := toSegmentsIntersection minuendStart minuendEnd subtrahendStart subtrahendEnd
      [⟨minuendStart, crossPoint⟩, ⟨crossPoint, minuendEnd⟩]
    else [original]
  else if minuendStartOrientation = .collinear ∧ minuendEndOrientation = .collinear then
    if subtrahendStart = minuendStart then
      if subtrahendEnd.ltB minuendEnd then [⟨subtrahendEnd, minuendEnd⟩] else []
    else if subtrahendEnd = minuendEnd then
      if minuendStart.ltB subtrahendStart then [⟨minuendStart, subtrahendStart⟩] else []
    else if subtrahendStart.ltB minuendStart ∧ minuendStart.ltB subtrahendEnd then
      if subtrahendEnd.ltB minuendEnd then [⟨subtrahendEnd, minuendEnd⟩] else []
    else if minuendStart.ltB subtrahendStart ∧ subtrahendStart.ltB minuendEnd then
      ⟨minuendStart, subtrahendStart⟩ ::
        (if subtrahendEnd.ltB minuendEnd then [⟨subtrahendEnd, minuendEnd⟩] else [])
    else [original]
  else [original]

/-- `rene/_clipping/difference.py` 842-913: the loop of `subtract_segment_from_multisegmental`. -/
def subtractLoop (subtrahendBox : Box) (subtrahendStart subtrahendEnd : Point) :
    List Segment → List Segment
  | [] => []
  | s :: rest =>
    if s.boundingBox.disjointWith subtrahendBox then
      s :: subtractLoop subtrahendBox subtrahendStart subtrahendEnd rest
    else
      let p := toSortedPair s.start s.end
      if subtrahendStart = p.1 ∧ subtrahendEnd = p.2 then rest
      else subtractFromOne subtrahendStart subtrahendEnd p.1 p.2 s
        ++ subtractLoop subtrahendBox subtrahendStart subtrahendEnd rest

/-- The multisegmental as a geometry value. -/
def Multisegmental.toGeom : Multisegmental → Geom
  | .contour c => .contour c
  | .multisegment m => .multisegment m

/-- `rene/_clipping/difference.py` 814-914: `subtract_segment_from_multisegmental`. -/
def subtractSegmentFromMultisegmental (minuend : Multisegmental) (subtrahend : Segment) :
    Except Err Geom :=
  if doBoxesHaveNoCommonContinuum minuend.boundingBox subtrahend.boundingBox then .ok minuend.toGeom
  else
    let p := toSortedPair subtrahend.start subtrahend.end
    collectMaybeEmptySegments (subtractLoop subtrahend.boundingBox p.1 p.2 minuend.segments)

end Rene
