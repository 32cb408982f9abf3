import Verif.Props.Mixed
import Verif.Props.Sweep
import Verif.Props.Basics

/-! Checkable criteria for the hypotheses of C48 and C49, and concrete cases meeting them. -/

namespace Rene
open Spec Sweep

/-- Segments which are disjoint or touch at a common end. -/
def nodedB (s t : Segment) : Bool :=
  decide (s.relateToSegment t = .disjoint) || (decide (s.relateToSegment t = .touch) &&
    (decide (s.start = t.start) || decide (s.start = t.end) || decide (s.end = t.start) || decide (s.end = t.end)))

theorem noded_of_nodedB {s t : Segment} (hs : s.start ≠ s.end) (ht : t.start ≠ t.end) (h : nodedB s t = true) :
    Noded s t := by
  simp only [nodedB, Bool.or_eq_true, Bool.and_eq_true, decide_eq_true_eq] at h
  rcases h with h | ⟨h, k⟩
  · have : segPts s ∩ segPts t = ∅ := (C02_segment_relate s t hs ht .disjoint).mp h
    have no : ∀ p, p ∈ segPts s → p ∈ segPts t → False := fun p h1 h2 => by
      have : p ∈ (∅ : Set Point) := this ▸ ⟨h1, h2⟩
      exact this
    exact ⟨fun p h1 _ => (no p h1.1 h1.2).elim, fun p h1 h2 => (no p h1 h2).elim⟩
  · obtain ⟨x, e, -⟩ : ∃ p, segPts s ∩ segPts t = {p} ∧ _ := (C02_segment_relate s t hs ht .touch).mp h
    have one : ∀ p, p ∈ segPts s → p ∈ segPts t → p = x := fun p h1 h2 => by
      have : p ∈ ({x} : Set Point) := e ▸ ⟨h1, h2⟩
      exact this
    refine ⟨fun p h1 q h2 => (one p h1.1 h1.2).trans (one q h2.1 h2.2).symm, fun p h1 h2 => ?_⟩
    have := one p h1 h2
    have e1 : s.start ∈ segPts s := start_mem_seg _ _
    have e2 : s.end ∈ segPts s := end_mem_seg _ _
    have e3 : t.start ∈ segPts t := start_mem_seg _ _
    have e4 : t.end ∈ segPts t := end_mem_seg _ _
    rcases k with ((k | k) | k) | k
    · have := one _ e1 (k ▸ e3); grind
    · have := one _ e1 (k ▸ e4); grind
    · have := one _ e2 (k ▸ e3); grind
    · have := one _ e2 (k ▸ e4); grind

theorem fullyNoded_of_nodedB {l : List Segment} (h : (∀ s ∈ l, s.start ≠ s.end) ∧
    l.Pairwise fun s t => nodedB s t = true) : FullyNoded l :=
  ⟨h.1, h.2.imp_of_mem fun hs ht e => noded_of_nodedB (h.1 _ hs) (h.1 _ ht) e⟩

/-- A criterion for simplicity of a contour. -/
def simpleB (c : Contour) : Bool :=
  decide (3 ≤ c.vertices.length) && decide c.vertices.Nodup && decide (∀ s ∈ c.segments, s.start ≠ s.end) &&
    decide (c.segments.Pairwise fun s t => nodedB s t = true)

theorem simple_of_simpleB {c : Contour} (h : simpleB c = true) : SimpleContour c := by
  simp only [simpleB, Bool.and_eq_true, decide_eq_true_eq] at h
  exact ⟨h.1.1.1, h.1.1.2, fullyNoded_of_nodedB ⟨h.1.2, h.2⟩⟩

/-- Boxes without common points. -/
def apartB (a b : Box) : Bool :=
  decide (a.maxX < b.minX) || decide (b.maxX < a.minX) || decide (a.maxY < b.minY) || decide (b.maxY < a.minY)

theorem not_both_of_apartB {a b : Box} (h : apartB a b = true) {q : Point} (h1 : q ∈ boxPts a) (h2 : q ∈ boxPts b) :
    False := by
  simp only [apartB, Bool.or_eq_true, decide_eq_true_eq] at h
  have k1 := mem_boxPts.mp h1
  have k2 := mem_boxPts.mp h2
  grind

/-- A box missing the boxes of all edges is on one side of the contour. -/
theorem locate_box {c : Contour} {b : Box} (h : ∀ e ∈ c.segments, apartB e.boundingBox b = true) {p q : Point}
    (hp : p ∈ boxPts b) (hq : q ∈ boxPts b) : locatePointInRegion c q = locatePointInRegion c p := by
  apply C23_constant_on_segment
  rw [Set.disjoint_left]
  rintro x hx ⟨e, he, k⟩
  refine not_both_of_apartB (h e he) (segPts_subset_boundingBox e k) ?_
  obtain ⟨t, h0, h1, rfl⟩ := hx
  have k1 := mem_boxPts.mp hp
  have k2 := mem_boxPts.mp hq
  refine mem_boxPts.mpr ⟨?_, ?_, ?_, ?_⟩ <;> simp only [lerp] <;> nlinarith

/-- A criterion for the interior of a contour to cover the box. -/
def boxInsideB (c : Contour) (b : Box) : Bool :=
  decide (b.minX ≤ b.maxX) && decide (b.minY ≤ b.maxY) &&
    decide (∀ e ∈ c.segments, apartB e.boundingBox b = true) &&
    decide (locatePointInRegion c ⟨b.minX, b.minY⟩ = .interior)

theorem inside_of_boxInsideB {c : Contour} {b : Box} (h : boxInsideB c b = true) {q : Point} (hq : q ∈ boxPts b) :
    locatePointInRegion c q = .interior := by
  simp only [boxInsideB, Bool.and_eq_true, decide_eq_true_eq] at h
  rw [locate_box h.1.2 (p := ⟨b.minX, b.minY⟩) (mem_boxPts.mpr ⟨le_rfl, h.1.1.1, le_rfl, h.1.1.2⟩) hq, h.2]

theorem in_box_of_located {c : Contour} (hc : 3 ≤ c.vertices.length) {q : Point}
    (h : locatePointInRegion c q ≠ .exterior) : q ∈ boxPts c.boundingBox := by
  by_contra k
  exact h (C22_outside_bounding_box c hc q k)

/-- A criterion for validity: holes in boxes apart from each other inside of the border. -/
def validB (p : Polygon) : Bool :=
  decide (∀ c ∈ polygonContours p, simpleB c = true) &&
  decide (∀ h ∈ p.holes, boxInsideB p.border h.boundingBox = true) &&
  decide (p.holes.Pairwise fun h k => apartB h.boundingBox k.boundingBox = true) &&
  decide (((polygonContours p).flatMap Contour.segments).Pairwise fun s t =>
    intersectSegmentWithSegment s t = .empty)

theorem valid_of_validB {p : Polygon} (h : validB p = true) : ValidPolygon p := by
  simp only [validB, Bool.and_eq_true, decide_eq_true_eq] at h
  obtain ⟨⟨⟨h1, h2⟩, h3⟩, h4⟩ := h
  have hs : ∀ c ∈ polygonContours p, SimpleContour c := fun c hc => simple_of_simpleB (h1 c hc)
  have hh : ∀ h ∈ p.holes, 3 ≤ h.vertices.length := fun h k => (hs h (List.mem_cons_of_mem _ k)).1
  refine ⟨hs, noOverlap_of_empty ⟨fun s hs' => ?_, h4⟩, fun h hm q => ⟨fun k => ?_, fun k => ?_⟩, ?_⟩
  · obtain ⟨c, hc, k⟩ := List.mem_flatMap.mp hs'
    exact (hs c hc).2.2.1 s k
  · exact inside_of_boxInsideB (h2 h hm) (in_box_of_located (hh h hm) (by rw [k]; exact Location.noConfusion))
  · rw [inside_of_boxInsideB (h2 h hm) (in_box_of_located (hh h hm) (by rw [k]; exact Location.noConfusion))]
    exact Location.noConfusion
  · refine h3.imp_of_mem fun ha hb e q => ⟨fun k => ?_, fun k => ?_⟩
    · exact not_both_of_apartB e (in_box_of_located (hh _ ha) (by rw [k.1]; exact Location.noConfusion))
        (in_box_of_located (hh _ hb) k.2)
    · exact not_both_of_apartB e (in_box_of_located (hh _ ha) k.2)
        (in_box_of_located (hh _ hb) (by rw [k.1]; exact Location.noConfusion))

/-- A criterion for validity of polygons in boxes apart from each other. -/
def validsB (l : List Polygon) : Bool :=
  decide (∀ p ∈ l, validB p = true) &&
  decide (l.Pairwise fun p r => apartB p.boundingBox r.boundingBox = true) &&
  decide ((l.flatMap fun p => (polygonContours p).flatMap Contour.segments).Pairwise fun s t =>
    intersectSegmentWithSegment s t = .empty)

theorem valids_of_validsB {l : List Polygon} (h : validsB l = true) : ValidPolygons l := by
  simp only [validsB, Bool.and_eq_true, decide_eq_true_eq] at h
  obtain ⟨⟨h1, h2⟩, h3⟩ := h
  have hv : ∀ p ∈ l, ValidPolygon p := fun p hp => valid_of_validB (h1 p hp)
  have inB : ∀ p ∈ l, ∀ q, p.locate q ≠ .exterior → q ∈ boxPts p.boundingBox := fun p hp q k =>
    validPolygon_box (hv p hp) k
  refine ⟨hv, noOverlap_of_empty ⟨fun s hs => ?_, h3⟩, h2.imp_of_mem fun ha hb e q => ⟨fun k => ?_, fun k => ?_⟩⟩
  · obtain ⟨p, hp, k⟩ := List.mem_flatMap.mp hs
    obtain ⟨c, hc, k⟩ := List.mem_flatMap.mp k
    exact ((hv p hp).1 c hc).2.2.1 s k
  · exact not_both_of_apartB e (inB _ ha q (by rw [k.1]; exact Location.noConfusion)) (inB _ hb q k.2)
  · exact not_both_of_apartB e (inB _ ha q k.2) (inB _ hb q (by rw [k.1]; exact Location.noConfusion))

/-! A square with a square hole, another square apart from it, and lines through both. -/

section
def exRing : Polygon := ⟨⟨[⟨0, 0⟩, ⟨6, 0⟩, ⟨6, 6⟩, ⟨0, 6⟩]⟩, [⟨[⟨2, 2⟩, ⟨2, 4⟩, ⟨4, 4⟩, ⟨4, 2⟩]⟩]⟩
def exPlate : Polygon := ⟨⟨[⟨8, 0⟩, ⟨10, 0⟩, ⟨9, 4⟩]⟩, []⟩
def exBoth : Multipolygon := ⟨[exRing, exPlate]⟩
def exLine : Segment := ⟨⟨-1, 3⟩, ⟨12, 3⟩⟩
def exCross : Multisegmental := .multisegment ⟨[exLine, ⟨⟨3, -2⟩, ⟨3, 7⟩⟩]⟩

theorem exRing_valid : ValidPolygon exRing := valid_of_validB (by decide +kernel)
theorem exBoth_valid : ValidPolygons exBoth.polygons := valids_of_validsB (by decide +kernel)
theorem exCross_valid : Constructed exCross ∧ NoOverlap exCross.segments :=
  ⟨by unfold Constructed exCross; decide, noOverlap_of_empty (by decide +kernel)⟩

/-- C48, C49: all the hypotheses hold in concrete cases. -/
example : exLine.start ≠ exLine.end ∧ ValidPolygon exRing ∧ ValidPolygons exBoth.polygons ∧ Constructed exCross ∧
    NoOverlap exCross.segments :=
  ⟨by decide, exRing_valid, exBoth_valid, exCross_valid⟩

example : intersectSegmentWithPolygon exLine exRing =
      .ok (.multisegment ⟨[⟨⟨0, 3⟩, ⟨2, 3⟩⟩, ⟨⟨4, 3⟩, ⟨6, 3⟩⟩]⟩) ∧
    intersectPolygonWithSegment exRing exLine =
      .ok (.multisegment ⟨[⟨⟨0, 3⟩, ⟨2, 3⟩⟩, ⟨⟨4, 3⟩, ⟨6, 3⟩⟩]⟩) := by decide +kernel

example : intersectMultisegmentalWithMultipolygon exCross exBoth =
    .ok (.multisegment ⟨[⟨⟨0, 3⟩, ⟨2, 3⟩⟩, ⟨⟨3, 0⟩, ⟨3, 2⟩⟩, ⟨⟨3, 4⟩, ⟨3, 6⟩⟩, ⟨⟨4, 3⟩, ⟨6, 3⟩⟩,
      ⟨⟨35 / 4, 3⟩, ⟨37 / 4, 3⟩⟩]⟩) := by decide +kernel

example : doBoxesHaveNoCommonArea exCross.boundingBox exRing.boundingBox = false ∧
    doBoxesHaveNoCommonArea exLine.boundingBox exRing.boundingBox = false ∧
    subtractPolygonFromSegment exLine exRing = .ok (.multisegment ⟨[⟨⟨-1, 3⟩, ⟨0, 3⟩⟩, ⟨⟨0, 3⟩, ⟨-1, 3⟩⟩,
      ⟨⟨2, 3⟩, ⟨4, 3⟩⟩, ⟨⟨4, 3⟩, ⟨2, 3⟩⟩, ⟨⟨6, 3⟩, ⟨12, 3⟩⟩, ⟨⟨12, 3⟩, ⟨6, 3⟩⟩]⟩) := by decide +kernel
end

end Rene
