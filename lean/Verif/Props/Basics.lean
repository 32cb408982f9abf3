import Verif.Lemmas.Locate
import Verif.Model.SegmentEq

/-! # C01-C04, C16, C17, C21, C26, C27: points, segments, orientation -/

namespace Rene
open Spec

/-- C01: `Segment.locate` is exact membership in the closed segment, for every segment (also a
degenerate one) and every point. -/
theorem C01_segment_locate (s : Segment) (p : Point) :
    (s.locate p = .boundary ↔ p ∈ segPts s) ∧ (s.locate p = .exterior ↔ p ∉ segPts s) ∧
      s.locate p ≠ .interior ∧ s.reverse.locate p = s.locate p ∧
      (s.contains p = true ↔ p ∈ segPts s) := by
  have h1 := locatePointInSegment_iff s.start s.end p
  have h2 := locatePointInSegment_exterior s.start s.end p
  have h3 := locatePointInSegment_ne_interior s.start s.end p
  have h1' := locatePointInSegment_iff s.end s.start p
  have h2' := locatePointInSegment_exterior s.end s.start p
  rw [seg_comm] at h1' h2'
  refine ⟨h1, h2, h3, ?_, ?_⟩
  · by_cases h : p ∈ segPts s
    · exact (h1'.mpr h).trans (h1.mpr h).symm
    · exact (h2'.mpr h).trans (h2.mpr h).symm
  · unfold Segment.contains Segment.locate
    rw [decide_eq_true_eq, Ne, h2, not_not]; rfl

/-- Non-vacuity: both answers occur, also strictly between the endpoints of a slanted segment. -/
example : (⟨⟨0, 0⟩, ⟨4, 2⟩⟩ : Segment).locate ⟨2, 1⟩ = .boundary ∧
    (⟨⟨0, 0⟩, ⟨4, 2⟩⟩ : Segment).locate ⟨2, 2⟩ = .exterior ∧
    (⟨⟨4, 0⟩, ⟨0, 2⟩⟩ : Segment).locate ⟨2, 1⟩ = .boundary := by
  simp [C01_segment_locate]
  refine ⟨⟨1/2, ?_⟩, ?_, ⟨1/2, ?_⟩⟩
  · norm_num [lerp]
  · rintro ⟨t, _, _, e⟩
    simp [lerp] at e
    linarith [e.1, e.2]
  · norm_num [lerp]

/-- C02: `relate_to` between non-degenerate segments answers `r` exactly when the point sets are in the
relation `r` of `Spec.SegRel`, and one of those relations always holds. -/
theorem C02_segment_relate (a b : Segment) (ha : a.start ≠ a.end) (hb : b.start ≠ b.end) (r : Relation) :
    a.relateToSegment b = r ↔ SegRel r a.start a.end b.start b.end :=
  relate_iff ha hb

example : (⟨⟨0, 0⟩, ⟨4, 0⟩⟩ : Segment).relateToSegment ⟨⟨2, -1⟩, ⟨2, 1⟩⟩ = .cross ∧
    (⟨⟨0, 0⟩, ⟨4, 0⟩⟩ : Segment).relateToSegment ⟨⟨6, 0⟩, ⟨2, 0⟩⟩ = .overlap ∧
    (⟨⟨0, 0⟩, ⟨4, 0⟩⟩ : Segment).relateToSegment ⟨⟨2, 0⟩, ⟨2, 1⟩⟩ = .touch := by
  decide +kernel

/-- The assertion on line 340 of `relate_to_segment_endpoints` never fails: when neither endpoint of the
second segment is collinear with the first one and they are on different sides, the endpoints of the
first segment are not both collinear with the second. -/
theorem C02_assertion_never_fails (a b c d : Point)
    (h1 : orient b a c ≠ orient b a d) (h2 : orient b a c ≠ .collinear) (h3 : orient b a d ≠ .collinear)
    (h4 : orient c d a = orient c d b) : orient c d a ≠ .collinear := by
  intro h
  have ha := orient_collinear.mp h
  have hb := orient_collinear.mp (h4 ▸ h)
  have hopp := opposite_of_orient h2 h3 h1
  have hcd : c ≠ d := by rintro rfl; exact h1 rfl
  have := cr_trans hcd hb ha (cr_self1 c d)
  rw [this] at hopp
  simp at hopp

/-- C03: complement and independence of direction. -/
theorem C03_relate_complement (a b : Segment) (ha : a.start ≠ a.end) (hb : b.start ≠ b.end) :
    a.relateToSegment b = (b.relateToSegment a).complement ∧
      a.reverse.relateToSegment b = a.relateToSegment b ∧
      a.relateToSegment b.reverse = a.relateToSegment b := by
  refine ⟨?_, ?_, ?_⟩
  · rw [C02_segment_relate a b ha hb]
    exact SegRel_complement ((C02_segment_relate b a hb ha _).mp rfl)
  · rw [C02_segment_relate a.reverse b (Ne.symm ha) hb]
    exact SegRel_swap_first.mp ((C02_segment_relate a b ha hb _).mp rfl)
  · rw [C02_segment_relate a b.reverse ha (Ne.symm hb)]
    exact SegRel_swap_second.mp ((C02_segment_relate a b ha hb _).mp rfl)

example : (⟨⟨0, 0⟩, ⟨4, 0⟩⟩ : Segment).relateToSegment ⟨⟨1, 0⟩, ⟨2, 0⟩⟩ = .composite ∧
    (⟨⟨1, 0⟩, ⟨2, 0⟩⟩ : Segment).relateToSegment ⟨⟨0, 0⟩, ⟨4, 0⟩⟩ = .component := by decide +kernel

/-- C04: `Relation.complement` is an involution (a finite table: all eleven values). -/
theorem C04_complement (r : Relation) : r.complement.complement = r ∧
    (r ∈ [.cross, .disjoint, .equal, .overlap, .touch] ↔ r.complement = r) ∧
    Relation.complement .component = .composite ∧ Relation.complement .cover = .within ∧
    Relation.complement .enclosed = .encloses := by
  cases r <;> decide

/-- C16: point comparisons form the lexicographic total order; all six operators are consistent and
equal points have equal hash keys. -/
theorem C16_point_order (a b c : Point) :
    (a.ltB b = true ↔ lexLt a b) ∧ (a.leB b = true ↔ lexLt a b ∨ a = b) ∧
    (a.gtB b = true ↔ lexLt b a) ∧ (a.geB b = true ↔ lexLt b a ∨ a = b) ∧
    (a.eqB b = true ↔ a = b) ∧ ¬ lexLt a a ∧ (lexLt a b → lexLt b c → lexLt a c) ∧
    (lexLt a b ∨ a = b ∨ lexLt b a) ∧ (lexLt a b → ¬ lexLt b a) ∧
    (a.eqB b = true ↔ a.hashKey = b.hashKey) := by
  have hl : ∀ a b : Point, lexLt a b ↔ a < b := fun a b => (Point.lt_iff).symm
  simp only [hl, Point.ltB_iff, Point.leB_iff, Point.gtB_iff, Point.geB_iff, Point.eqB_iff]
  refine ⟨trivial, le_iff_lt_or_eq, trivial, ?_, trivial, lt_irrefl a, lt_trans, lt_trichotomy a b,
    fun h => h.asymm, ?_⟩
  · rw [le_iff_lt_or_eq, eq_comm]
  · simp [Point.hashKey, Point.eq_iff]

example : (⟨1, 5⟩ : Point).ltB ⟨2, 0⟩ = true ∧ (⟨1, 5⟩ : Point).ltB ⟨1, 6⟩ = true := by decide +kernel

theorem endpoints_determined {α : Type*} [LinearOrder α] {x y z w : α}
    (h1 : (z ≤ x ∧ x ≤ w) ∨ (w ≤ x ∧ x ≤ z)) (h2 : (z ≤ y ∧ y ≤ w) ∨ (w ≤ y ∧ y ≤ z))
    (h3 : (x ≤ z ∧ z ≤ y) ∨ (y ≤ z ∧ z ≤ x)) (h4 : (x ≤ w ∧ w ≤ y) ∨ (y ≤ w ∧ w ≤ x)) :
    (x = z ∧ y = w) ∨ (y = z ∧ x = w) := by
  grind

theorem segment_points_determine {a b : Segment} (h : segPts a = segPts b) :
    (a.start = b.start ∧ a.end = b.end) ∨ (a.end = b.start ∧ a.start = b.end) := by
  have h1 : a.start ∈ segPts b := h ▸ start_mem_seg _ _
  have h2 : a.end ∈ segPts b := h ▸ end_mem_seg _ _
  have h3 : b.start ∈ segPts a := h ▸ start_mem_seg _ _
  have h4 : b.end ∈ segPts a := h ▸ end_mem_seg _ _
  have m1 := (mem_seg_iff.mp h1).2
  have m2 := (mem_seg_iff.mp h2).2
  have m3 := (mem_seg_iff.mp h3).2
  have m4 := (mem_seg_iff.mp h4).2
  exact endpoints_determined m1 m2 m3 m4

/-- C17: segment equality is equality of point sets, of unordered endpoint pairs, and of hash keys. -/
theorem C17_segment_eq (a b : Segment) :
    (a.eqB b = true ↔ segPts a = segPts b) ∧ (a.eqB b = true ↔ b = a ∨ b = a.reverse) ∧
      (a.eqB b = true ↔ a.hashKey = b.hashKey) := by
  have key : a.eqB b = true ↔ (a.start = b.start ∧ a.end = b.end) ∨ (a.end = b.start ∧ a.start = b.end) := by
    simp [Segment.eqB, Point.eqB_iff]
  refine ⟨?_, ?_, ?_⟩ <;> rw [key]
  · constructor
    · rintro (⟨h1, h2⟩ | ⟨h1, h2⟩)
      · unfold segPts; rw [h1, h2]
      · unfold segPts; rw [h1, h2, seg_comm]
    · exact segment_points_determine
  · obtain ⟨a1, a2⟩ := a
    obtain ⟨b1, b2⟩ := b
    simp only [Segment.reverse, Segment.mk.injEq]
    tauto
  · unfold Segment.hashKey
    constructor
    · rintro (⟨h1, h2⟩ | ⟨h1, h2⟩)
      · rw [h1, h2]
      · rw [h1, h2, Finset.pair_comm]
    · intro h
      have h1 : a.start ∈ ({b.start, b.end} : Finset Point) := h ▸ by simp
      have h2 : a.end ∈ ({b.start, b.end} : Finset Point) := h ▸ by simp
      have h3 : b.start ∈ ({a.start, a.end} : Finset Point) := h ▸ by simp
      have h4 : b.end ∈ ({a.start, a.end} : Finset Point) := h ▸ by simp
      simp only [Finset.mem_insert, Finset.mem_singleton] at h1 h2 h3 h4
      grind

/-- C17: segment equality is an equivalence relation. -/
theorem C17_segment_eq_equivalence : Equivalence (fun a b : Segment => a.eqB b = true) := by
  refine ⟨fun a => ?_, fun {a b} h => ?_, fun {a b c} h h' => ?_⟩
  · rw [(C17_segment_eq _ _).1]
  · rw [(C17_segment_eq _ _).1] at *; exact h.symm
  · rw [(C17_segment_eq _ _).1] at *; exact h.trans h'

example : (⟨⟨0, 0⟩, ⟨1, 2⟩⟩ : Segment).eqB ⟨⟨1, 2⟩, ⟨0, 0⟩⟩ = true := by decide +kernel

/-- C21: `Contour.locate` and `Multisegment.locate` are exact membership. -/
theorem C21_locate (c : Contour) (m : Multisegment) (p : Point) :
    (c.locate p = .boundary ↔ p ∈ segsPts c.segments) ∧ (c.locate p = .exterior ↔ p ∉ segsPts c.segments) ∧
      (m.locate p = .boundary ↔ p ∈ segsPts m.segments) ∧
      (m.locate p = .exterior ↔ p ∉ segsPts m.segments) := by
  have h1 := contour_locate_iff c p
  have h2 := locateInSegments_iff m.segments p
  refine ⟨h1.1, ?_, h2.1, ?_⟩
  · rw [← h1.1]
    generalize c.locate p = x at *
    cases x <;> simp at *
  · rw [← h2.1]
    unfold Multisegment.locate
    generalize locateInSegments m.segments p = x at *
    cases x <;> simp at *

example : (⟨[⟨0, 0⟩, ⟨4, 0⟩, ⟨0, 4⟩]⟩ : Contour).locate ⟨2, 2⟩ = .boundary ∧
    (⟨[⟨0, 0⟩, ⟨4, 0⟩, ⟨0, 4⟩]⟩ : Contour).locate ⟨1, 1⟩ = .exterior := by decide +kernel

/-- C26: `orient` is the sign of the signed area; its symmetries; collinearity. -/
theorem C26_orient (a b c d : Point) :
    (orient a b c = .counterclockwise ↔ 0 < area2 a b c) ∧ (orient a b c = .clockwise ↔ area2 a b c < 0) ∧
    (orient a b c = .collinear ↔ area2 a b c = 0) ∧
    orient b c a = orient a b c ∧ orient c a b = orient a b c ∧
    (orient b a c = .clockwise ↔ orient a b c = .counterclockwise) ∧
    (orient b a c = .counterclockwise ↔ orient a b c = .clockwise) ∧
    (orient a c b = .clockwise ↔ orient a b c = .counterclockwise) ∧
    (a ≠ b → (orient a b c = .collinear ↔ ∃ t, c = lerp a b t)) ∧
    orient ⟨a.x + d.x, a.y + d.y⟩ ⟨b.x + d.x, b.y + d.y⟩ ⟨c.x + d.x, c.y + d.y⟩ = orient a b c := by
  have hc : orient a b c = .counterclockwise ∨ orient a b c = .clockwise ∨ orient a b c = .collinear := by
    cases orient a b c <;> simp
  have same : ∀ u v w : Point, cr u v w = cr a b c → orient u v w = orient a b c := by
    intro u v w h
    rcases hc with g | g | g <;> rw [g]
    · rw [orient_ccw] at *; linarith
    · rw [orient_cw] at *; linarith
    · rw [orient_collinear] at *; linarith
  refine ⟨?_, ?_, ?_, same _ _ _ (cr_rot _ _ _), same _ _ _ (by unfold cr; ring), ?_, ?_, ?_, ?_, ?_⟩
  · rw [orient_ccw, cr_eq_area2]
  · rw [orient_cw, cr_eq_area2]
  · rw [orient_collinear, cr_eq_area2]
  · rw [orient_ccw, orient_cw, cr_swap12, neg_lt_zero]
  · rw [orient_ccw, orient_cw, cr_swap12, neg_pos]
  · rw [orient_ccw, orient_cw, cr_swap23, neg_lt_zero]
  · intro hab
    rw [orient_collinear]
    exact ⟨fun h => exists_lerp hab h, by rintro ⟨t, rfl⟩; exact cr_lerp_self _ _ _⟩
  · exact same _ _ _ (by unfold cr; ring)

example : orient ⟨0, 0⟩ ⟨1, 0⟩ ⟨0, 1⟩ = .counterclockwise := by decide +kernel

/-- C27: for properly crossing segments the computed point is the only common point, it is strictly
inside both, and strictly between the endpoints in the lexicographic order. -/
theorem C27_intersection_point (a b c d : Point)
    (h1 : orient a b c ≠ .collinear ∧ orient a b d ≠ .collinear ∧ orient a b c ≠ orient a b d)
    (h2 : orient c d a ≠ .collinear ∧ orient c d b ≠ .collinear ∧ orient c d a ≠ orient c d b) :
    seg a b ∩ seg c d = {toSegmentsIntersection a b c d} ∧
      toSegmentsIntersection a b c d ∈ openSeg a b ∧ toSegmentsIntersection a b c d ∈ openSeg c d ∧
      ((lexLt a (toSegmentsIntersection a b c d) ∧ lexLt (toSegmentsIntersection a b c d) b) ∨
        (lexLt b (toSegmentsIntersection a b c d) ∧ lexLt (toSegmentsIntersection a b c d) a)) ∧
      crossMultiply a b c d ≠ 0 ∧
      toSegmentsIntersection c d a b = toSegmentsIntersection a b c d := by
  rw [sides_iff] at h1 h2
  obtain ⟨e, k1, k2⟩ := toSegmentsIntersection_spec h1 h2
  obtain ⟨e', _, _⟩ := toSegmentsIntersection_spec h2 h1
  have hl : ∀ a b : Point, lexLt a b ↔ a < b := fun a b => (Point.lt_iff).symm
  refine ⟨e, k1, k2, ?_, ?_, ?_⟩
  · simp only [hl]
    have hab : a ≠ b := by rintro rfl; rw [cr_self3, cr_self3] at h1; simp at h1
    rcases lt_or_gt_of_ne hab with h | h
    · exact Or.inl (openSeg_lt h k1)
    · rw [openSeg_comm] at k1; exact Or.inr (openSeg_lt h k1)
  · have : crossMultiply a b c d = cr c d a - cr c d b := by unfold crossMultiply cr; ring
    rw [this]; exact opposite_ne h2
  · rw [Set.inter_comm, e] at e'
    exact (Set.singleton_injective e').symm

example : (orient ⟨0, 0⟩ ⟨4, 4⟩ ⟨0, 4⟩ ≠ .collinear ∧ orient ⟨0, 0⟩ ⟨4, 4⟩ ⟨4, 0⟩ ≠ .collinear ∧
    orient ⟨0, 0⟩ ⟨4, 4⟩ ⟨0, 4⟩ ≠ orient ⟨0, 0⟩ ⟨4, 4⟩ ⟨4, 0⟩) ∧
    toSegmentsIntersection ⟨0, 0⟩ ⟨4, 4⟩ ⟨0, 4⟩ ⟨4, 0⟩ = ⟨2, 2⟩ := by decide +kernel

end Rene
