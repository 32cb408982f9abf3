import Verif.Lemmas.ContourRelate
import Verif.Lemmas.MultiRelate2
import Verif.Lemmas.RegionRelate
import Verif.Props.Helpers
import Verif.Props.Sweep
import Mathlib.Tactic.IntervalCases

/-! C37, C46: a segment against a contour, a multisegment and a polygon. -/

namespace Rene
open Spec

theorem contour_nextEdge (c : Contour) (hc : c.vertices ≠ []) (e e' : Segment) (h : NextEdge c.segments e e') :
    e.end = e'.start := by
  obtain ⟨hlen, hget⟩ := C32_contour_segments c hc
  obtain ⟨i, hi, hi'⟩ := h
  have hpos : 0 < c.vertices.length := List.length_pos_iff.mpr hc
  have hil : i < c.vertices.length := by
    rw [← hlen]
    by_contra hn
    rw [List.getElem?_eq_none (by omega)] at hi
    cases hi
  have hv : ∀ j, j < c.vertices.length → ∃ a, c.vertices[j]? = some a := fun j hj =>
    ⟨_, List.getElem?_eq_getElem hj⟩
  rw [hlen] at hi'
  set j := (i + 1) % c.vertices.length with hj
  have hjl : j < c.vertices.length := Nat.mod_lt _ hpos
  obtain ⟨a, ha⟩ := hv i hil
  obtain ⟨b, hb⟩ := hv j hjl
  obtain ⟨d, hd⟩ := hv ((j + 1) % c.vertices.length) (Nat.mod_lt _ hpos)
  have h1 := hget i a b ha hb
  have h2 := hget j b d hb hd
  rw [h1] at hi
  rw [h2] at hi'
  cases hi
  cases hi'
  rfl

/-- C37: `Segment.relate_to(Contour)` never fails and answers exactly the relation of the point sets, for contours
whose edges do not overlap and which have no straight angles (both demanded by `Contour.is_valid`). -/
theorem C37_contour (s : Segment) (hs : s.start ≠ s.end) (c : Contour) (hc : c.vertices ≠ [])
    (hno : NoOverlap c.segments) (hang : NoStraightAngle c.segments) (r : Relation) :
    s.relateToContour c = .ok r ↔ ContourRel r s.start s.end c.segments := by
  have hne : c.segments ≠ [] := by
    rw [← List.length_pos_iff, (C32_contour_segments c hc).1]
    exact List.length_pos_iff.mpr hc
  obtain ⟨r', h1, h2⟩ := relateToContourSegments_sound hs hne hno (contour_nextEdge c hc) hang
  unfold Segment.relateToContour
  rw [h1]
  constructor
  · intro h; cases h; exact h2
  · intro h; rw [ContourRel_unique hs h h2]

/-- C37: some answer is given. -/
theorem C37_contour_total (s : Segment) (hs : s.start ≠ s.end) (c : Contour) (hc : c.vertices ≠ [])
    (hno : NoOverlap c.segments) (hang : NoStraightAngle c.segments) :
    ∃ r, s.relateToContour c = .ok r := by
  have hne : c.segments ≠ [] := by
    rw [← List.length_pos_iff, (C32_contour_segments c hc).1]
    exact List.length_pos_iff.mpr hc
  obtain ⟨r', h1, -⟩ := relateToContourSegments_sound hs hne hno (contour_nextEdge c hc) hang
  exact ⟨r', h1⟩

/-- C37: `Segment.relate_to(Multisegment)` answers exactly the relation of the point sets, for multisegments whose
components neither overlap nor cross (`Multisegment.is_valid`). -/
theorem C37_multisegment (s : Segment) (hs : s.start ≠ s.end) (m : Multisegment) (hm : 2 ≤ m.segments.length)
    (hw : WellJoined m.segments) (r : Relation) :
    s.relateToMultisegment m = r ↔ MultisegmentRel r s.start s.end m.segments := by
  constructor
  · rintro rfl; exact relateToMultisegmentSegments_sound hs hm hw
  · intro h
    exact MultisegmentRel_unique hs hw (by rintro e; rw [e] at hm; simp at hm) (relateToMultisegmentSegments_sound hs hm hw) h

/-- C37: the answer does not depend on the direction of the segment. -/
theorem C37_multisegment_direction (s : Segment) (hs : s.start ≠ s.end) (m : Multisegment)
    (hm : 2 ≤ m.segments.length) (hw : WellJoined m.segments) :
    s.reverse.relateToMultisegment m = s.relateToMultisegment m := by
  unfold Segment.relateToMultisegment relateToMultisegmentSegments Segment.reverse
  rcases lt_or_gt_of_ne hs with h | h
  · simp [Point.ltB_iff, h, not_lt.mpr h.le]
  · simp [Point.ltB_iff, h, not_lt.mpr h.le]

/-! ## Examples -/

def exampleZigzag : Contour := ⟨[⟨0, 0⟩, ⟨6, 0⟩, ⟨6, 4⟩, ⟨3, 1⟩, ⟨0, 4⟩]⟩

theorem exampleZigzag_noOverlap : NoOverlap exampleZigzag.segments := noOverlap_of_empty (by decide +kernel)

theorem exampleZigzag_angles : NoStraightAngle exampleZigzag.segments := by
  intro e e' h
  have key : ∀ i, i < 5 → ∀ e e', exampleZigzag.segments[i]? = some e →
      exampleZigzag.segments[(i + 1) % 5]? = some e' → area2 e.start e.end e'.end ≠ 0 := by
    intro i hi
    interval_cases i <;> intro e e' h h' <;> cases h <;> cases h' <;>
      norm_num [area2]
  obtain ⟨i, h1, h2⟩ := h
  have hlen : exampleZigzag.segments.length = 5 := rfl
  rw [hlen] at h2
  refine key i ?_ e e' h1 h2
  by_contra hn
  rw [List.getElem?_eq_none (by rw [hlen]; omega)] at h1
  cases h1

-- the hypotheses of `C37_contour` are met, with every possible answer
example : (Segment.mk ⟨1, 0⟩ ⟨2, 0⟩).relateToContour exampleZigzag = .ok .component ∧
    (Segment.mk ⟨-1, 0⟩ ⟨2, 0⟩).relateToContour exampleZigzag = .ok .overlap ∧
    (Segment.mk ⟨3, 0⟩ ⟨3, 4⟩).relateToContour exampleZigzag = .ok .cross ∧
    (Segment.mk ⟨1, 1⟩ ⟨5, 1⟩).relateToContour exampleZigzag = .ok .touch ∧
    (Segment.mk ⟨1, -1⟩ ⟨1, 1⟩).relateToContour exampleZigzag = .ok .cross ∧
    (Segment.mk ⟨-1, 5⟩ ⟨1, 3⟩).relateToContour exampleZigzag = .ok .overlap ∧
    (Segment.mk ⟨-1, -1⟩ ⟨1, 1⟩).relateToContour exampleZigzag = .ok .cross ∧
    (Segment.mk ⟨1, 1⟩ ⟨2, 1⟩).relateToContour exampleZigzag = .ok .disjoint := by decide +kernel

/-- The vertex (0, 0), where the list of edges closes, is passed by the segment from (-1, 1) to (1, -1) only as a
touch, and by the one from (-1, -1) to (1, 1) as a crossing. -/
example : (Segment.mk ⟨-1, 1⟩ ⟨1, -1⟩).relateToContour exampleZigzag = .ok .touch ∧
    ContourRel .cross ⟨-1, -1⟩ ⟨1, 1⟩ exampleZigzag.segments := by
  refine ⟨by decide +kernel, ?_⟩
  exact (C37_contour ⟨⟨-1, -1⟩, ⟨1, 1⟩⟩ (by decide +kernel) exampleZigzag (by decide) exampleZigzag_noOverlap
    exampleZigzag_angles .cross).mp (by decide +kernel)

/-- Without `NoStraightAngle` the answer can be wrong: the first edge goes on along the last one, so that the
segment only touches the contour, at one point, but CROSS is answered. -/
theorem C37_straight_angle_answers_cross :
    let s : Segment := ⟨⟨0, 0⟩, ⟨2, 0⟩⟩
    let c : Contour := ⟨[⟨4, 0⟩, ⟨6, 0⟩, ⟨4, 3⟩, ⟨2, 0⟩]⟩
    s.relateToContour c = .ok .cross ∧ segPts s ∩ contourPts c = {s.end} := by
  refine ⟨by decide +kernel, ?_⟩
  ext p
  constructor
  · rintro ⟨h1, e, he, h2⟩
    obtain ⟨t, t0, t1, rfl⟩ := h1
    rw [Set.mem_singleton_iff]
    have he : e ∈ [(⟨⟨4, 0⟩, ⟨6, 0⟩⟩ : Segment), ⟨⟨6, 0⟩, ⟨4, 3⟩⟩, ⟨⟨4, 3⟩, ⟨2, 0⟩⟩, ⟨⟨2, 0⟩, ⟨4, 0⟩⟩] := he
    obtain ⟨u, u0, u1, h2⟩ := h2
    rw [Point.eq_iff] at h2 ⊢
    simp only [List.mem_cons, List.not_mem_nil, or_false] at he
    rcases he with rfl | rfl | rfl | rfl <;> simp only [lerp] at h2 ⊢ <;> obtain ⟨k1, k2⟩ := h2 <;>
      refine ⟨by linarith, by ring⟩
  · rintro rfl
    refine ⟨end_mem_seg _ _, ⟨⟨2, 0⟩, ⟨4, 0⟩⟩, by decide +kernel, start_mem_seg _ _⟩

def exampleJoined : Multisegment := ⟨[⟨⟨0, 0⟩, ⟨2, 0⟩⟩, ⟨⟨4, 0⟩, ⟨2, 0⟩⟩, ⟨⟨4, 0⟩, ⟨4, 4⟩⟩]⟩

theorem exampleJoined_wellJoined : WellJoined exampleJoined.segments := by
  have hno : NoOverlap exampleJoined.segments := noOverlap_of_empty (by decide +kernel)
  refine ⟨hno.1, ?_⟩
  have hj : ∀ s t : Segment, s.start ≠ s.end → t.start ≠ t.end →
      relateToSegmentEndpoints s.start s.end t.start t.end = .touch → Apart s t → Joined s t := by
    intro s t hs ht hr ha
    refine ⟨ha, ?_⟩
    by_contra hn
    obtain ⟨p, hp1, hp2⟩ := Set.nonempty_iff_ne_empty.mpr hn
    obtain ⟨q, hq, hq'⟩ := (relate_iff hs ht).mp hr
    have m1 := (mem_openSeg_iff hs).mp hp1
    have m2 := (mem_openSeg_iff ht).mp hp2
    have : p ∈ ({q} : Set Point) := by rw [← hq]; exact ⟨m1.1, m2.1⟩
    rw [Set.mem_singleton_iff] at this
    subst this
    rcases hq' with rfl | rfl | rfl | rfl
    · exact m1.2.1 rfl
    · exact m1.2.2 rfl
    · exact m2.2.1 rfl
    · exact m2.2.2 rfl
  have hd : ∀ s t : Segment, s.start ≠ s.end → t.start ≠ t.end →
      relateToSegmentEndpoints s.start s.end t.start t.end = .disjoint → Apart s t → Joined s t := by
    intro s t hs ht hr ha
    refine ⟨ha, ?_⟩
    by_contra hn
    obtain ⟨p, hp1, hp2⟩ := Set.nonempty_iff_ne_empty.mpr hn
    have hq : seg s.start s.end ∩ seg t.start t.end = ∅ := (relate_iff hs ht).mp hr
    have m1 := (mem_openSeg_iff hs).mp hp1
    have m2 := (mem_openSeg_iff ht).mp hp2
    have : p ∈ (∅ : Set Point) := by rw [← hq]; exact ⟨m1.1, m2.1⟩
    exact this
  have hp := hno.2
  simp only [exampleJoined, List.pairwise_cons, List.mem_cons, List.not_mem_nil, or_false] at hp ⊢
  refine ⟨?_, ?_, by simp⟩
  · rintro t (rfl | rfl)
    · exact hj _ _ (by decide +kernel) (by decide +kernel) (by decide +kernel) (hp.1 _ (Or.inl rfl))
    · exact hd _ _ (by decide +kernel) (by decide +kernel) (by decide +kernel) (hp.1 _ (Or.inr rfl))
  · rintro t rfl
    exact hj _ _ (by decide +kernel) (by decide +kernel) (by decide +kernel) (hp.2.1 _ rfl)

-- the hypotheses of `C37_multisegment` are met, with every possible answer
example : (Segment.mk ⟨1, 0⟩ ⟨3, 0⟩).relateToMultisegment exampleJoined = .component ∧
    (Segment.mk ⟨4, 0⟩ ⟨0, 0⟩).relateToMultisegment exampleJoined = .component ∧
    (Segment.mk ⟨3, 0⟩ ⟨5, 0⟩).relateToMultisegment exampleJoined = .overlap ∧
    (Segment.mk ⟨2, 0⟩ ⟨2, 2⟩).relateToMultisegment exampleJoined = .touch ∧
    (Segment.mk ⟨3, 2⟩ ⟨5, 2⟩).relateToMultisegment exampleJoined = .cross ∧
    (Segment.mk ⟨3, 1⟩ ⟨5, -1⟩).relateToMultisegment exampleJoined = .cross ∧
    (Segment.mk ⟨3, -1⟩ ⟨5, 1⟩).relateToMultisegment exampleJoined = .touch ∧
    (Segment.mk ⟨4, 0⟩ ⟨0, 0⟩).relateToMultisegment ⟨exampleJoined.segments.take 2⟩ = .equal ∧
    (Segment.mk ⟨5, 0⟩ ⟨0, 0⟩).relateToMultisegment ⟨exampleJoined.segments.take 2⟩ = .composite ∧
    (Segment.mk ⟨0, 1⟩ ⟨1, 1⟩).relateToMultisegment exampleJoined = .disjoint := by decide +kernel

/-! ## C46: regions -/

theorem seg_subset {a b p q : Point} (hp : p ∈ seg a b) (hq : q ∈ seg a b) : seg p q ⊆ seg a b := by
  obtain ⟨t, t0, t1, rfl⟩ := hp
  obtain ⟨u, u0, u1, rfl⟩ := hq
  rintro x ⟨v, v0, v1, rfl⟩
  refine ⟨t + v * (u - t), by nlinarith, by nlinarith, ?_⟩
  rw [Point.eq_iff]; simp only [lerp]; constructor <;> ring

/-- The answer for one region. -/
theorem relateToRegion_iff (s : Segment) (hs : s.start ≠ s.end) (c : Contour) (hc : c.vertices ≠ [])
    (hne : ∀ e ∈ c.segments, e.start ≠ e.end) (reverse : Bool) :
    ∃ r, relateToRegion s.start s.end c reverse = .ok r ∧
      (r = .disjoint ↔ ∀ p ∈ segPts s, locatePointInRegion c p = .exterior) ∧
      (r = .within ↔ ∀ p ∈ segPts s, locatePointInRegion c p = .interior) ∧
      (r = .component → ∃ e ∈ c.segments, segPts s ⊆ segPts e) ∧
      (r = .component ∨ r = .cross ∨ r = .enclosed ∨ r = .touch ∨ r = .disjoint ∨ r = .within) := by
  have hsegs : c.segments ≠ [] := by
    rw [← List.length_pos_iff, (C32_contour_segments c hc).1]
    exact List.length_pos_iff.mpr hc
  obtain ⟨r, h1, h2, h3, h4, -, h6⟩ := relateToRegion_spec hs hsegs hne reverse
  have key : ∀ l, l ≠ .boundary → ((seg s.start s.end ∩ contourPts c = ∅ ∧ locatePointInRegion c s.start = l) ↔
      ∀ p ∈ segPts s, locatePointInRegion c p = l) := by
    intro l hl
    constructor
    · rintro ⟨k1, rfl⟩ p hp
      symm
      apply C23_constant_on_segment
      rw [Set.disjoint_left]
      intro q hq hq'
      have : q ∈ seg s.start s.end ∩ contourPts c := ⟨?_, hq'⟩
      · rw [k1] at this; exact this.elim
      · exact seg_subset (start_mem_seg _ _) hp hq
    · intro h
      refine ⟨?_, h _ (start_mem_seg _ _)⟩
      by_contra hn
      obtain ⟨p, hp, hp'⟩ := Set.nonempty_iff_ne_empty.mpr hn
      exact hl (by rw [← h p hp]; exact locatePointInRegion_of_mem hp')
  exact ⟨r, h1, h2.trans (key _ (by simp)), h3.trans (key _ (by simp)), h4, h6⟩

/-- The hole is a part of the inside of the border. -/
def Spec.HoleInside (border hole : Contour) : Prop :=
  ∀ p, locatePointInRegion hole p = .interior → locatePointInRegion border p = .interior

/-- C46: for a polygon with at most one hole whose contours have no degenerate edges, `Segment.relate_to(Polygon)`
never fails; DISJOINT is answered exactly when all points of the segment are outside of the polygon, and WITHIN
exactly when all of them are inside. -/
theorem C46_segment_polygon (s : Segment) (hs : s.start ≠ s.end) (g : Polygon) (hg : g.holes.length ≤ 1)
    (hv : ∀ c ∈ g.border :: g.holes, c.vertices ≠ [] ∧ ∀ e ∈ c.segments, e.start ≠ e.end)
    (hin : ∀ h ∈ g.holes, HoleInside g.border h) :
    ∃ r, s.relateToPolygon g = some (.ok r) ∧
      (r = .disjoint ↔ ∀ p ∈ segPts s, g.locate p = .exterior) ∧
      (r = .within ↔ ∀ p ∈ segPts s, g.locate p = .interior) := by
  rcases g with ⟨border, holes⟩
  simp only at *
  obtain ⟨hb1, hb2⟩ := hv border List.mem_cons_self
  obtain ⟨r, h1, h2, h3, h4, h5⟩ := relateToRegion_iff s hs border hb1 hb2 false
  rcases holes with _ | ⟨h, _ | ⟨h', rest⟩⟩
  · have hloc : ∀ p, (Polygon.mk border []).locate p = locatePointInRegion border p := by
      intro p
      unfold Polygon.locate locateInHoles
      simp only
      split <;> simp_all
    unfold Segment.relateToPolygon
    simp only [h1, hloc]
    refine ⟨r, ?_, h2, h3⟩
    split <;> rfl
  · obtain ⟨hh1, hh2⟩ := hv h (by simp)
    obtain ⟨r', k1, k2, k3, k4, k5⟩ := relateToRegion_iff s hs h hh1 hh2 true
    have hin' := hin h (by simp)
    have hI : ∀ p, (Polygon.mk border [h]).locate p = .interior ↔
        locatePointInRegion border p = .interior ∧ locatePointInRegion h p = .exterior := by
      intro p; rw [(C24_polygon_locate _ p).1]; simp
    have hE : ∀ p, (Polygon.mk border [h]).locate p = .exterior ↔
        locatePointInRegion border p = .exterior ∨
          (locatePointInRegion border p = .interior ∧ locatePointInRegion h p = .interior) := by
      intro p
      unfold Polygon.locate
      simp only [locateInHoles]
      rcases locatePointInRegion border p <;> rcases locatePointInRegion h p <;> simp
    have eI : (∀ p ∈ segPts s, (Polygon.mk border [h]).locate p = .interior) ↔ r = .within ∧ r' = .disjoint := by
      rw [h3, k2]
      simp only [hI]
      exact ⟨fun h => ⟨fun p hp => (h p hp).1, fun p hp => (h p hp).2⟩, fun h p hp => ⟨h.1 p hp, h.2 p hp⟩⟩
    have eE : (∀ p ∈ segPts s, (Polygon.mk border [h]).locate p = .exterior) ↔ r = .disjoint ∨ r' = .within := by
      simp only [hE]
      constructor
      · intro hall
        have hd : ∀ p ∈ segPts s, locatePointInRegion border p = locatePointInRegion border s.start := by
          intro p hp
          symm
          apply C23_constant_on_segment
          rw [Set.disjoint_left]
          intro q hq hq'
          have := hall q (seg_subset (start_mem_seg _ _) hp hq)
          rw [locatePointInRegion_of_mem hq'] at this
          simp at this
        rcases hall s.start (start_mem_seg _ _) with h0 | h0
        · left; rw [h2]; intro p hp; rw [hd p hp, h0]
        · right; rw [k3]; intro p hp
          rcases hall p hp with h' | h'
          · rw [hd p hp, h0.1] at h'; cases h'
          · exact h'.2
      · rintro (h | h) p hp
        · exact Or.inl (h2.mp h p hp)
        · exact Or.inr ⟨hin' p (k3.mp h p hp), k3.mp h p hp⟩
    have hrw : r' = .within → r = .within := fun h => h3.mpr fun p hp => hin' p (k3.mp h p hp)
    rw [eE]
    simp only [eI]
    unfold Segment.relateToPolygon
    simp only [h1]
    by_cases hr : r = .within ∨ r = .enclosed
    · rw [if_pos hr]
      simp only [k1, bind, Except.bind]
      rcases k5 with rfl | rfl | rfl | rfl | rfl | rfl <;> refine ⟨_, rfl, ?_⟩ <;> clear h4 k4 eI eE hI hE <;>
        rcases hr with rfl | rfl <;> simp_all
    · rw [if_neg hr]
      refine ⟨r, rfl, ?_, ?_⟩
      · constructor
        · exact Or.inl
        · rintro (h | h)
          · exact h
          · exact absurd (Or.inl (hrw h)) hr
      · constructor
        · exact fun h => absurd (Or.inl h) hr
        · exact fun h => h.1
  · simp at hg

/-! ### Findings -/

/-- The same square, with the vertices listed counterclockwise and clockwise. -/
def exampleSquare : Polygon := ⟨⟨[⟨0, 0⟩, ⟨4, 0⟩, ⟨4, 4⟩, ⟨0, 4⟩]⟩, []⟩
def exampleSquareReversed : Polygon := ⟨⟨[⟨0, 4⟩, ⟨4, 4⟩, ⟨4, 0⟩, ⟨0, 0⟩]⟩, []⟩

/-- C47 (finding): the two polygons are equal and locate every point alike, but the diagonal is ENCLOSED for one of
them and only TOUCHes the other one. -/
theorem C47_depends_on_vertices_direction :
    exampleSquare.border.eqB exampleSquareReversed.border = true ∧
    (∀ p, exampleSquare.locate p = exampleSquareReversed.locate p) ∧
    (Segment.mk ⟨0, 0⟩ ⟨4, 4⟩).relateToPolygon exampleSquare = some (.ok .enclosed) ∧
    (Segment.mk ⟨0, 0⟩ ⟨4, 4⟩).relateToPolygon exampleSquareReversed = some (.ok .touch) := by
  refine ⟨by decide +kernel, fun p => ?_, by decide +kernel, by decide +kernel⟩
  have : locatePointInRegion exampleSquare.border p = locatePointInRegion exampleSquareReversed.border p :=
    (locate_reversal _ p).symm
  unfold Polygon.locate
  rw [this]
  rfl

/-- C47 (finding): a counterclockwise polygon for which a segment outside of it, with both ends on the border, is
ENCLOSED, while the same segment with its ends swapped TOUCHes it. -/
theorem C47_depends_on_segment_direction :
    let g : Polygon := ⟨⟨[⟨-5, -5⟩, ⟨8, -5⟩, ⟨8, 4⟩, ⟨4, 4⟩, ⟨2, 2⟩, ⟨2, 0⟩, ⟨0, 0⟩, ⟨0, 5⟩, ⟨-5, 5⟩]⟩, []⟩
    let s : Segment := ⟨⟨0, 0⟩, ⟨4, 4⟩⟩
    s.relateToPolygon g = some (.ok .enclosed) ∧ s.reverse.relateToPolygon g = some (.ok .touch) ∧
      s.eqB s.reverse = true ∧ g.locate ⟨1, 1⟩ = .exterior ∧ g.locate ⟨3, 3⟩ = .boundary := by decide +kernel

/-- C47 (finding): a segment with points outside and points inside, whose answer is TOUCH. -/
theorem C47_touch_with_interior_points :
    let g : Polygon := ⟨⟨[⟨0, 0⟩, ⟨2, 0⟩, ⟨2, -3⟩, ⟨6, -3⟩, ⟨6, 4⟩, ⟨0, 4⟩]⟩, []⟩
    let s : Segment := ⟨⟨-2, 0⟩, ⟨4, 0⟩⟩
    s.relateToPolygon g = some (.ok .touch) ∧ (⟨3, 0⟩ : Point) ∈ segPts s ∧ g.locate ⟨3, 0⟩ = .interior ∧
      (⟨-1, 0⟩ : Point) ∈ segPts s ∧ g.locate ⟨-1, 0⟩ = .exterior := by
  refine ⟨by decide +kernel, ⟨5 / 6, by norm_num, by norm_num, ?_⟩, by decide +kernel,
    ⟨1 / 6, by norm_num, by norm_num, ?_⟩, by decide +kernel⟩ <;>
  · rw [Point.eq_iff]; simp only [lerp]; norm_num

/-! ### Examples -/

-- the hypotheses of `C46_segment_polygon` for a square with a hole
theorem exampleHoled_inside : ∀ h ∈ exampleHoled.holes, HoleInside exampleHoled.border h := by
  intro h hh p hp
  simp only [exampleHoled, List.mem_singleton] at hh
  subst hh
  have hp' : p ∈ boxPts (Contour.boundingBox ⟨[⟨1, 1⟩, ⟨2, 1⟩, ⟨2, 2⟩, ⟨1, 2⟩]⟩) := by
    by_contra hn
    rw [C22_outside_bounding_box _ (by decide) p hn] at hp
    cases hp
  have hq : (⟨3 / 2, 3 / 2⟩ : Point) ∈ boxPts (Contour.boundingBox ⟨[⟨1, 1⟩, ⟨2, 1⟩, ⟨2, 2⟩, ⟨1, 2⟩]⟩) := by
    rw [mem_boxPts]; decide +kernel
  have hbox : Contour.boundingBox ⟨[⟨1, 1⟩, ⟨2, 1⟩, ⟨2, 2⟩, ⟨1, 2⟩]⟩ = ⟨1, 2, 1, 2⟩ := by decide +kernel
  have hsub := seg_subset_box hp' hq
  rw [C23_constant_on_segment _ p ⟨3 / 2, 3 / 2⟩]
  · decide +kernel
  · rw [Set.disjoint_left]
    rintro q h1 ⟨e, he, u, u0, u1, rfl⟩
    have := hsub h1
    rw [hbox, mem_boxPts] at this
    have he : e ∈ [(⟨⟨0, 0⟩, ⟨4, 0⟩⟩ : Segment), ⟨⟨4, 0⟩, ⟨4, 4⟩⟩, ⟨⟨4, 4⟩, ⟨0, 4⟩⟩, ⟨⟨0, 4⟩, ⟨0, 0⟩⟩] := he
    simp only [List.mem_cons, List.not_mem_nil, or_false] at he
    rcases he with rfl | rfl | rfl | rfl <;> simp only [lerp] at this <;> linarith [this.1, this.2.1, this.2.2.1, this.2.2.2]

example : (Segment.mk ⟨1, 3⟩ ⟨3, 3⟩).relateToPolygon exampleHoled = some (.ok .within) ∧
    (Segment.mk ⟨5 / 4, 3 / 2⟩ ⟨3 / 2, 3 / 2⟩).relateToPolygon exampleHoled = some (.ok .disjoint) ∧
    (Segment.mk ⟨5, 5⟩ ⟨6, 6⟩).relateToPolygon exampleHoled = some (.ok .disjoint) ∧
    (Segment.mk ⟨1, 3⟩ ⟨1, 3 / 2⟩).relateToPolygon exampleHoled = some (.ok .enclosed) := by decide +kernel

end Rene
