import Verif.Model.Basic

/-! Model of the segment/segment part of `rene/_relating/segment_endpoints.py`. -/

namespace Rene

/-- `rene/_relating/segment_endpoints.py` 303-350: body of `relate_to_segment_endpoints` after both
pairs of endpoints have been sorted. The assertion of line 340 is not part of the value; see
`relate_assertion_340` for the proof that it cannot fail. -/
def relateSorted (firstStart firstEnd secondStart secondEnd : Point) : Relation :=
  if firstStart = secondStart ∧ firstEnd = secondEnd then .equal else
  let secondStartOrientation := orient firstEnd firstStart secondStart
  let secondEndOrientation := orient firstEnd firstStart secondEnd
  if secondStartOrientation = secondEndOrientation then
    if secondStartOrientation ≠ .collinear then .disjoint
    else if firstStart = secondStart then
      if secondEnd.ltB firstEnd then .composite else .component
    else if firstEnd = secondEnd then
      if secondStart.ltB firstStart then .component else .composite
    else if firstStart = secondEnd ∨ firstEnd = secondStart then .touch
    else if firstStart.ltB secondStart ∧ secondStart.ltB firstEnd then
      if secondEnd.ltB firstEnd then .composite else .overlap
    else if secondStart.ltB firstStart ∧ firstStart.ltB secondEnd then
      if firstEnd.ltB secondEnd then .component else .overlap
    else .disjoint
  else if secondStartOrientation = .collinear then
    if firstStart.leB secondStart ∧ secondStart.leB firstEnd then .touch else .disjoint
  else if secondEndOrientation = .collinear then
    if firstStart.leB secondEnd ∧ secondEnd.leB firstEnd then .touch else .disjoint
  else
  let firstStartOrientation := orient secondStart secondEnd firstStart
  let firstEndOrientation := orient secondStart secondEnd firstEnd
  if firstStartOrientation = firstEndOrientation then .disjoint
  else if firstStartOrientation = .collinear then
    if secondStart.ltB firstStart ∧ firstStart.ltB secondEnd then .touch else .disjoint
  else if firstEndOrientation = .collinear then
    if secondStart.ltB firstEnd ∧ firstEnd.ltB secondEnd then .touch else .disjoint
  else .cross

/-- `rene/_relating/segment_endpoints.py` 291-350: `relate_to_segment_endpoints`.  Lines 299-300
assert (twice) that the first segment is non-degenerate; the theorems carry that as a hypothesis. -/
def relateToSegmentEndpoints (firstStart firstEnd secondStart secondEnd : Point) : Relation :=
  let first := toSortedPair firstStart firstEnd
  let second := toSortedPair secondStart secondEnd
  relateSorted first.1 first.2 second.1 second.2

/-- `rene/_relating/segment.py` `relate_to_segment`, called by `BaseSegment.relate_to`
(`rene/_geometries/base_segment.py` 61-90) for a segment argument. -/
def Segment.relateToSegment (a b : Segment) : Relation :=
  relateToSegmentEndpoints a.start a.end b.start b.end

end Rene
