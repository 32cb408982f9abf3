import Verif.Model.Relating
import Verif.Model.Geometries

/-! Model of the rest of `rene/_relating/segment_endpoints.py` and of the parts of `rene/_relating/segment.py` and
`rene/_geometries/base_segment.py` which use it: a segment against a contour, a multisegment, a region. -/

namespace Rene

/-- `rene/_utils.py` 306-316: `point_vertex_line_divides_angle`. -/
def pointVertexLineDividesAngle (point vertex firstRayPoint secondRayPoint : Point) : Bool :=
  orient vertex firstRayPoint point = orient vertex point secondRayPoint

/-- `rene/_utils.py` 499-514: `subtract_segments_overlap`. -/
def subtractSegmentsOverlap (minuendStart minuendEnd subtrahendStart subtrahendEnd : Point) : Point × Point :=
  let minuend := toSortedPair minuendStart minuendEnd
  let subtrahend := toSortedPair subtrahendStart subtrahendEnd
  if subtrahend.1.ltB minuend.1 ∧ minuend.1.ltB subtrahend.2 then (subtrahend.2, minuend.2)
  else (minuend.1, subtrahend.1)

/-- The variables of the loop of `relate_to_contour_segments`
(`rene/_relating/segment_endpoints.py` 35-37). -/
structure ContourScan where
  hasNoCross : Bool := true
  hasNoTouch : Bool := true
  lastTouchedEdgeIndex : Option Nat := none
  lastTouchedEdgeStart : Option Point := none
  deriving DecidableEq, Repr

/-- `rene/_relating/segment_endpoints.py` 50-74: the treatment of an edge which is touched, at the given
index. -/
def ContourScan.touch (s : ContourScan) (start «end» : Point) (index : Nat) (edge : Segment) :
    Except Err ContourScan := do
  let s ←
    if s.hasNoTouch then pure { s with hasNoTouch := false }
    else if s.hasNoCross then
      match s.lastTouchedEdgeIndex, s.lastTouchedEdgeStart with
      | some last, some lastStart =>
        if index - last = 1 ∧ (start ≠ edge.start ∧ edge.start ≠ «end») ∧ (start ≠ edge.end ∧ edge.end ≠ «end») ∧
            orient start «end» edge.start = .collinear ∧
            pointVertexLineDividesAngle start edge.start lastStart edge.end then
          pure { s with hasNoCross := false }
        else pure s
      | _, _ => throw .assertionError
    else pure s
  pure { s with lastTouchedEdgeIndex := some index, lastTouchedEdgeStart := some edge.start }

/-- `rene/_relating/segment_endpoints.py` 38-79: the loop of `relate_to_contour_segments` from an index on; either
an early result or the variables at the end. -/
def contourScanLoop (start «end» : Point) : Nat → ContourScan → List Segment → Except Err (Relation ⊕ ContourScan)
  | _, s, [] => pure (.inr s)
  | index, s, edge :: rest => do
    match relateToSegmentEndpoints start «end» edge.start edge.end with
    | .component | .equal => pure (.inl .component)
    | .overlap | .composite => pure (.inl .overlap)
    | .touch => contourScanLoop start «end» (index + 1) (← s.touch start «end» index edge) rest
    | .cross => contourScanLoop start «end» (index + 1) { s with hasNoCross := false } rest
    | .disjoint => contourScanLoop start «end» (index + 1) s rest
    | _ => throw .assertionError

/-- `rene/_relating/segment_endpoints.py` 28-104: `relate_to_contour_segments`. -/
def relateToContourSegments (start «end» : Point) (edges : List Segment) : Except Err Relation := do
  match edges with
  | [] => throw .indexError
  | first :: _ =>
    match ← contourScanLoop start «end» 0 {} edges with
    | .inl r => pure r
    | .inr s =>
      let hasNoCross ←
        if s.hasNoTouch = false ∧ s.hasNoCross ∧ s.lastTouchedEdgeIndex = some (edges.length - 1) ∧
            (start ≠ first.start ∧ first.start ≠ «end») ∧ (start ≠ first.end ∧ first.end ≠ «end») ∧
            orient start «end» first.start = .collinear then
          match s.lastTouchedEdgeStart with
          | none => throw .assertionError
          | some lastStart =>
            pure (if pointVertexLineDividesAngle start first.start lastStart first.end then false else s.hasNoCross)
        else pure s.hasNoCross
      pure (if hasNoCross then (if s.hasNoTouch then .disjoint else .touch) else .cross)

/-- `rene/_geometries/base_segment.py` 61-62, `rene/_relating/segment.py` 27-35: `Segment.relate_to(Contour)`. -/
def Segment.relateToContour (s : Segment) (c : Contour) : Except Err Relation :=
  relateToContourSegments s.start s.end c.segments

/-- The variables of the loop of `relate_to_multisegment_segments`
(`rene/_relating/segment_endpoints.py` 132-140). -/
structure MultiScan where
  isSegmentSuperset : Bool := true
  hasNoTouch : Bool := true
  hasNoCross : Bool := true
  hasNoOverlap : Bool := true
  clockwiseMiddleTouchScales : List ℚ := []
  counterclockwiseMiddleTouchScales : List ℚ := []
  components : List (Point × Point) := []
  start : Point
  «end» : Point
  deriving DecidableEq, Repr

/-- `rene/_relating/segment_endpoints.py` 155-169: a component which is a part of the segment. -/
def MultiScan.composite (s : MultiScan) (a b : Point) : MultiScan :=
  let s := { s with hasNoOverlap := false }
  if s.start = a ∨ s.start = b then { s with start := if a.ltB b then b else a }
  else if s.end = a ∨ s.end = b then { s with «end» := if b.ltB a then b else a }
  else { s with components := s.components ++ [toSortedPair a b] }

/-- `rene/_relating/segment_endpoints.py` 170-180: a component which overlaps the segment. -/
def MultiScan.overlap (s : MultiScan) (a b : Point) : MultiScan :=
  let r := subtractSegmentsOverlap s.start s.end a b
  { s with isSegmentSuperset := false, hasNoOverlap := false, start := r.1, «end» := r.2 }

/-- `rene/_relating/segment_endpoints.py` 181-228: a component which is touched. -/
def MultiScan.touch (s : MultiScan) (originalStart originalEnd a b : Point) : MultiScan :=
  let s := { s with isSegmentSuperset := false }
  if s.hasNoOverlap then
    let s := { s with hasNoTouch := false }
    if s.hasNoCross ∧ (a ≠ originalStart ∧ originalStart ≠ b) ∧ (a ≠ originalEnd ∧ originalEnd ≠ b) then
      let scale := toSegmentsIntersectionScale originalStart originalEnd a b
      let nonTouched := if locatePointInSegment originalStart originalEnd b = .boundary then a else b
      if orient originalStart originalEnd nonTouched = .counterclockwise then
        { s with counterclockwiseMiddleTouchScales := s.counterclockwiseMiddleTouchScales ++ [scale] }
      else { s with clockwiseMiddleTouchScales := s.clockwiseMiddleTouchScales ++ [scale] }
    else s
  else s

/-- `rene/_relating/segment_endpoints.py` 181-184, 229-230: a component which is crossed. -/
def MultiScan.cross (s : MultiScan) : MultiScan :=
  let s := { s with isSegmentSuperset := false }
  if s.hasNoOverlap then { s with hasNoCross := false } else s

/-- `rene/_relating/segment_endpoints.py` 141-230: the loop of `relate_to_multisegment_segments`; `none` is the
early result COMPONENT. -/
def multiScanLoop (originalStart originalEnd : Point) : MultiScan → List Segment → Option MultiScan
  | s, [] => some s
  | s, c :: rest =>
    match relateToSegmentEndpoints originalStart originalEnd c.start c.end with
    | .component | .equal => none
    | .composite => multiScanLoop originalStart originalEnd (s.composite c.start c.end) rest
    | .overlap => multiScanLoop originalStart originalEnd (s.overlap c.start c.end) rest
    | .touch => multiScanLoop originalStart originalEnd (s.touch originalStart originalEnd c.start c.end) rest
    | .cross => multiScanLoop originalStart originalEnd s.cross rest
    | _ => multiScanLoop originalStart originalEnd { s with isSegmentSuperset := false } rest

/-- `rene/_relating/segment_endpoints.py` 231-288: the result of `relate_to_multisegment_segments` from the
variables at the end of the loop. -/
def MultiScan.result (s : MultiScan) : Relation :=
  if s.hasNoOverlap then
    let less := if s.clockwiseMiddleTouchScales.length < s.counterclockwiseMiddleTouchScales.length
      then s.clockwiseMiddleTouchScales else s.counterclockwiseMiddleTouchScales
    let more := if s.clockwiseMiddleTouchScales.length < s.counterclockwiseMiddleTouchScales.length
      then s.counterclockwiseMiddleTouchScales else s.clockwiseMiddleTouchScales
    let hasNoCross :=
      if s.hasNoCross ∧ s.clockwiseMiddleTouchScales ≠ [] ∧ s.counterclockwiseMiddleTouchScales ≠ [] then
        if less.any fun scale => scale ∈ more then false else s.hasNoCross
      else s.hasNoCross
    if s.hasNoTouch ∧ hasNoCross then .disjoint else if hasNoCross then .touch else .cross
  else
    match s.components with
    | first :: rest =>
      let minStart := rest.foldl (fun m c => if c.1.ltB m then c.1 else m) first.1
      let maxEnd := rest.foldl (fun m c => if m.ltB c.2 then c.2 else m) first.2
      let starts := s.components.map Prod.fst
      if minStart = s.start ∧ maxEnd = s.end ∧
          s.components.all (fun c => c.2 ∈ starts || c.2 = maxEnd) then
        if s.isSegmentSuperset then .equal else .component
      else if s.isSegmentSuperset then .composite else .overlap
    | [] =>
      if s.start = s.end then (if s.isSegmentSuperset then .equal else .component)
      else if s.isSegmentSuperset then .composite else .overlap

/-- `rene/_relating/segment_endpoints.py` 124-288: `relate_to_multisegment_segments`. -/
def relateToMultisegmentSegments (start «end» : Point) (segments : List Segment) : Relation :=
  let first := if «end».ltB start then «end» else start
  let last := if «end».ltB start then start else «end»
  match multiScanLoop first last { start := first, «end» := last } segments with
  | none => .component
  | some s => s.result

/-- `rene/_geometries/base_segment.py` 69-75, `rene/_relating/segment.py` 111-125:
`Segment.relate_to(Multisegment)`. -/
def Segment.relateToMultisegment (s : Segment) (m : Multisegment) : Relation :=
  relateToMultisegmentSegments s.start s.end m.segments

/-- `rene/_relating/segment_endpoints.py` 479-549: the loop of `_relate_to_region_border`, from an index on; either
an early result or the variables `has_touch`, `has_overlap`, `last_touched_edge_index` and
`last_touched_edge_start`. -/
def regionBorderLoop (start «end» : Point) : Nat → Bool → Bool → Option (Nat × Point) → List Segment →
    Except Err (Relation ⊕ (Bool × Bool × Option (Nat × Point)))
  | _, hasTouch, hasOverlap, last, [] => pure (.inr (hasTouch, hasOverlap, last))
  | index, hasTouch, hasOverlap, last, edge :: rest => do
    match relateToSegmentEndpoints edge.start edge.end start «end» with
    | .component | .overlap => regionBorderLoop start «end» (index + 1) hasTouch true last rest
    | .composite | .equal => pure (.inl .component)
    | .cross => pure (.inl .cross)
    | .touch =>
      if hasTouch then
        match last with
        | none => throw .assertionError
        | some (lastIndex, lastStart) =>
          if index - lastIndex = 1 ∧ start ≠ edge.start ∧ start ≠ edge.end ∧ «end» ≠ edge.start ∧ «end» ≠ edge.end ∧
              orient start «end» edge.start = .collinear ∧
              pointVertexLineDividesAngle start edge.start lastStart edge.end then pure (.inl .cross)
          else regionBorderLoop start «end» (index + 1) true hasOverlap (some (index, edge.start)) rest
      else regionBorderLoop start «end» (index + 1) true hasOverlap (some (index, edge.start)) rest
    | _ => regionBorderLoop start «end» (index + 1) hasTouch hasOverlap last rest

/-- `rene/_relating/segment_endpoints.py` 479-569: `_relate_to_region_border`. -/
def relateToRegionBorder (start «end» : Point) (edges : List Segment) : Except Err Relation := do
  match ← regionBorderLoop start «end» 0 false false none edges with
  | .inl r => pure r
  | .inr (hasTouch, hasOverlap, last) =>
    let rest : Relation := if hasOverlap then .overlap else if hasTouch then .touch else .disjoint
    if hasTouch ∧ last.map Prod.fst = some (edges.length - 1) then
      match edges.head?, edges.getLast? with
      | some first, some final =>
        if relateToSegmentEndpoints first.start first.end start «end» = .touch ∧
            start ≠ first.start ∧ start ≠ first.end ∧ «end» ≠ first.start ∧ «end» ≠ first.end ∧
            orient start «end» first.start = .collinear ∧
            pointVertexLineDividesAngle start first.start final.start first.end then pure .cross
        else pure rest
      | _, _ => throw .indexError
    else pure rest

/-- `rene/_relating/segment_endpoints.py` 572-592: `_locate_point_in_region`, from an index on. -/
def locateInRegionIndexed (point : Point) : Nat → Bool → List Segment → Option Nat × Location
  | _, result, [] => (none, if result then .interior else .exterior)
  | index, result, edge :: rest =>
    if locatePointInSegment edge.start edge.end point = .boundary then (some index, .boundary)
    else if decide (edge.start.y > point.y) ≠ decide (edge.end.y > point.y) ∧
        decide (edge.end.y > edge.start.y) = decide (orient edge.start edge.end point = .counterclockwise) then
      locateInRegionIndexed point (index + 1) (!result) rest
    else locateInRegionIndexed point (index + 1) result rest

/-- The edge at a position taken modulo the number of edges, as Python's negative indices
and `(i + 1) % len(edges)`. -/
def edgeMod (edges : List Segment) (i : Nat) : Segment :=
  edges.getD (i % edges.length) ⟨⟨0, 0⟩, ⟨0, 0⟩⟩

/-- `rene/_relating/segment_endpoints.py` 398-435: whether the first end of a segment with both ends on the border
shows that the segment is outside. -/
def startLeavesRegion (edges : List Segment) (reverse : Bool) (i : Nat) (start «end» : Point) : Bool :=
  let n := edges.length
  let edge := edgeMod edges i
  let border : Orientation := if reverse then .clockwise else .counterclockwise
  if start = edge.start then
    let prev := if reverse then (edgeMod edges (i + 1)).end else (edgeMod edges (i + n - 1)).start
    if orient prev edge.start edge.end = border then
      orient edge.start prev «end» = border || orient edge.end edge.start «end» = border
    else orient edge.start prev «end» = border && orient edge.end edge.start «end» = border
  else if start = edge.end then
    let next := if reverse then (edgeMod edges (i + n - 1)).start else (edgeMod edges (i + 1)).end
    orient edge.start edge.end next = border &&
      (orient edge.end edge.start «end» = border || orient next edge.end «end» = border)
  else orient edge.end edge.start «end» = border

/-- `rene/_relating/segment_endpoints.py` 436-475: the same for the other end (arguments: this end first). -/
def endLeavesRegion (edges : List Segment) (reverse : Bool) (i : Nat) («end» start : Point) : Bool :=
  let n := edges.length
  let edge := edgeMod edges i
  let border : Orientation := if reverse then .clockwise else .counterclockwise
  if «end» = edge.start then
    let prev := if reverse then (edgeMod edges (i + 1)).end else (edgeMod edges (i + n - 1)).start
    if orient prev edge.start edge.end = border then
      orient edge.start prev start = border || orient edge.end edge.start start = border
    else orient edge.start prev start = border && orient edge.end edge.start start = border
  else if «end» = edge.end then
    let next := if reverse then (edgeMod edges (i + n - 1)).start else (edgeMod edges (i + 1)).end
    if orient edge.start edge.end next = border then
      orient edge.end edge.start start = border || orient next edge.end start = border
    else orient edge.end edge.start start = border && orient next edge.end start = border
  else orient edge.end edge.start start = border

/-- `rene/_relating/segment_endpoints.py` 353-476: `relate_to_region`. -/
def relateToRegion (start «end» : Point) (border : Contour) (reverse : Bool) : Except Err Relation := do
  let edges := border.segments
  match ← relateToRegionBorder start «end» edges with
  | .cross => pure .cross
  | .component => pure .component
  | relation =>
    match locateInRegionIndexed start 0 false edges with
    | (startIndex, startLocation) =>
      if relation = .disjoint then pure (if startLocation = .exterior then .disjoint else .within)
      else if startLocation = .exterior then pure .touch
      else if startLocation = .interior then pure .enclosed
      else match startIndex with
        | none => throw .assertionError
        | some i =>
          match locateInRegionIndexed «end» 0 false edges with
          | (endIndex, endLocation) =>
            if endLocation = .exterior then pure .touch
            else if endLocation = .interior then pure .enclosed
            else match endIndex with
              | none => throw .assertionError
              | some j =>
                if startLeavesRegion edges reverse i start «end» then pure .touch
                else if endLeavesRegion edges reverse j «end» start then pure .touch
                else pure .enclosed

/-- `rene/_geometries/base_segment.py` 76-79, `rene/_relating/segment.py` 128-162: `Segment.relate_to(Polygon)`.
For two holes and more `relate_to_multiregion` is used, which is not modelled (`none`). -/
def Segment.relateToPolygon (s : Segment) (p : Polygon) : Option (Except Err Relation) :=
  match relateToRegion s.start s.end p.border false with
  | .error e => some (.error e)
  | .ok relation =>
    if relation = .within ∨ relation = .enclosed then
      match p.holes with
      | [] => some (.ok relation)
      | [hole] =>
        some (do
          match ← relateToRegion s.start s.end hole true with
          | .disjoint => pure relation
          | .touch => pure .enclosed
          | .enclosed => pure .touch
          | .within => pure .disjoint
          | r => pure r)
      | _ => none
    else some (.ok relation)

end Rene
