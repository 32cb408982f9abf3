import Verif.Lemmas.BoxComplement
import Verif.Lemmas.BoundingBox
import Verif.Lemmas.Clipping
import Verif.Props.SegmentOps

/-! # C12-C15: boxes and bounding boxes -/

namespace Rene
open Spec

theorem boxPts_eq_iff {a b : Box} (ha : ValidBox a) (hb : ValidBox b) :
    boxPts a = boxPts b ↔ a.minX = b.minX ∧ a.maxX = b.maxX ∧ a.minY = b.minY ∧ a.maxY = b.maxY := by
  rw [Set.Subset.antisymm_iff, boxPts_subset ha, boxPts_subset hb]
  constructor
  · rintro ⟨⟨h1, h2, h3, h4⟩, ⟨h5, h6, h7, h8⟩⟩
    exact ⟨le_antisymm h5 h1, le_antisymm h2 h6, le_antisymm h7 h3, le_antisymm h4 h8⟩
  · rintro ⟨h1, h2, h3, h4⟩
    simp [h1, h2, h3, h4]

set_option maxHeartbeats 1000000 in
theorem encloses_iff {a b : Box} (ha : ValidBox a) (hb : ValidBox b) : a.encloses b = true ↔
    boxPts b ⊂ boxPts a ∧ (boxPts b ∩ boxBoundary a).Nonempty := by
  have s1 := boxPts_subset ha (b := b)
  have s2 := boxPts_subset hb (b := a)
  have i2 := boxPts_subset_interior hb (b := a)
  constructor
  · intro h
    have : ((a.minX ≤ b.minX ∧ b.maxX ≤ a.maxX ∧ a.minY ≤ b.minY ∧ b.maxY ≤ a.maxY) ∧
      ¬ (b.minX ≤ a.minX ∧ a.maxX ≤ b.maxX ∧ b.minY ≤ a.minY ∧ a.maxY ≤ b.maxY)) ∧
      ¬ (a.minX < b.minX ∧ b.maxX < a.maxX ∧ a.minY < b.minY ∧ b.maxY < a.maxY) := by
      clear s1 s2 i2 ha hb
      unfold Box.encloses at h
      split_ifs at h <;> simp at h <;> grind
    rw [← s2, ← s1, ← i2] at this
    exact ⟨⟨this.1.1, this.1.2⟩, (boundary_nonempty this.1.1).mpr this.2⟩
  · rintro ⟨⟨h1, h2⟩, h3⟩
    rw [boundary_nonempty h1] at h3
    rw [s2] at h1
    have h2' : ¬ boxPts a ⊆ boxPts b := h2
    rw [s1] at h2'
    rw [i2] at h3
    clear s1 s2 i2 ha hb h2
    unfold Box.encloses
    split_ifs <;> simp <;> grind

theorem enclosedBy_eq (a b : Box) : a.enclosedBy b = b.encloses a := by
  unfold Box.enclosedBy Box.encloses
  simp only [eq_comm (a := b.maxX), eq_comm (a := b.maxY), eq_comm (a := b.minX), eq_comm (a := b.minY),
    gt_iff_lt]

theorem touches_iff {a b : Box} (pa : PosArea a) (pb : PosArea b) : a.touches b = true ↔
    boxPts a ∩ boxPts b ≠ ∅ ∧ boxInterior a ∩ boxInterior b = ∅ := by
  rw [boxInterior_inter_empty pa pb, Ne, boxPts_inter_empty pa.valid pb.valid]
  obtain ⟨a1, a2⟩ := pa
  obtain ⟨b1, b2⟩ := pb
  simp only [Box.touches, decide_eq_true_eq]
  grind

theorem overlaps_iff {a b : Box} (pa : PosArea a) (pb : PosArea b) : a.overlaps b = true ↔
    boxInterior a ∩ boxInterior b ≠ ∅ ∧ ¬ boxPts a ⊆ boxPts b ∧ ¬ boxPts b ⊆ boxPts a := by
  rw [Ne, boxInterior_inter_empty pa pb, boxPts_subset pa.valid, boxPts_subset pb.valid]
  obtain ⟨a1, a2⟩ := pa
  obtain ⟨b1, b2⟩ := pb
  unfold Box.overlaps
  split_ifs <;> (try simp only [decide_eq_true_eq, Bool.false_eq_true]) <;> grind

/-- C12: the box predicates mean what their names say on point sets. The containment and disjointness
predicates for every valid (possibly degenerate) box, `touches` and `overlaps` for boxes of positive
area; equality and hash keys coincide with equality of point sets. -/
theorem C12_box_predicates (a b : Box) (ha : ValidBox a) (hb : ValidBox b) :
    (a.covers b = true ↔ boxPts b ⊆ boxInterior a) ∧
    (a.within b = true ↔ boxPts a ⊆ boxInterior b) ∧
    (a.disjointWith b = true ↔ boxPts a ∩ boxPts b = ∅) ∧
    (a.equalsTo b = true ↔ boxPts a = boxPts b) ∧
    (a.encloses b = true ↔ boxPts b ⊂ boxPts a ∧ (boxPts b ∩ boxBoundary a).Nonempty) ∧
    (a.enclosedBy b = true ↔ boxPts a ⊂ boxPts b ∧ (boxPts a ∩ boxBoundary b).Nonempty) ∧
    (a.equalsTo b = true ↔ a.hashKey = b.hashKey) ∧
    (PosArea a → PosArea b →
      (a.touches b = true ↔ boxPts a ∩ boxPts b ≠ ∅ ∧ boxInterior a ∩ boxInterior b = ∅) ∧
      (a.overlaps b = true ↔ boxInterior a ∩ boxInterior b ≠ ∅ ∧ ¬ boxPts a ⊆ boxPts b ∧
        ¬ boxPts b ⊆ boxPts a)) := by
  refine ⟨?_, ?_, ?_, ?_, encloses_iff ha hb, ?_, ?_, fun pa pb => ⟨touches_iff pa pb, overlaps_iff pa pb⟩⟩
  · rw [boxPts_subset_interior hb]
    simp only [Box.covers, Bool.and_eq_true, decide_eq_true_eq]; clear ha hb; tauto
  · rw [boxPts_subset_interior ha]
    simp only [Box.within, Bool.and_eq_true, decide_eq_true_eq]; clear ha hb; tauto
  · rw [boxPts_inter_empty ha hb]
    simp only [Box.disjointWith, Bool.or_eq_true, decide_eq_true_eq]; clear ha hb; tauto
  · rw [boxPts_eq_iff ha hb]
    simp only [Box.equalsTo, Bool.and_eq_true, decide_eq_true_eq]; clear ha hb; tauto
  · rw [enclosedBy_eq, encloses_iff hb ha]
  · simp only [Box.equalsTo, Bool.and_eq_true, decide_eq_true_eq, Box.hashKey, Prod.mk.injEq]
    clear ha hb; tauto

example : ValidBox ⟨0, 4, 0, 4⟩ ∧ (⟨0, 4, 0, 4⟩ : Box).encloses ⟨1, 4, 1, 2⟩ = true ∧
    (⟨0, 4, 0, 4⟩ : Box).covers ⟨1, 3, 1, 2⟩ = true ∧ (⟨0, 4, 0, 4⟩ : Box).touches ⟨4, 5, 4, 6⟩ = true ∧
    (⟨0, 4, 0, 4⟩ : Box).overlaps ⟨3, 5, 3, 6⟩ = true := by
  refine ⟨by norm_num [ValidBox], ?_⟩
  decide +kernel

/-- C13: `Box.relate_to` on boxes of positive area answers `r` exactly when the closed rectangles are in
relation `r` of `Spec.BoxRel`. -/
theorem C13_box_relate (a b : Box) (ha : PosArea a) (hb : PosArea b) (r : Relation) :
    a.relateTo b = r ↔ BoxRel r a b := by
  rw [boxRel_iff_cond ha hb]
  constructor
  · rintro rfl; exact relateTo_cond ha hb
  · intro h; exact BoxCond_unique ha hb (relateTo_cond ha hb) h

/-- C13: the two orders of operands are complementary for all valid boxes, also degenerate ones. -/
theorem C13_box_relate_complement (a b : Box) (ha : ValidBox a) (hb : ValidBox b) :
    b.relateTo a = (a.relateTo b).complement := relateTo_complement a b ha hb

example : PosArea ⟨0, 4, 0, 4⟩ ∧ (⟨0, 4, 0, 4⟩ : Box).relateTo ⟨1, 3, 1, 3⟩ = .cover ∧
    (⟨0, 4, 0, 4⟩ : Box).relateTo ⟨4, 5, 4, 5⟩ = .touch := by
  refine ⟨by norm_num [PosArea], ?_⟩
  decide +kernel

/-- C13, finding: for a degenerate box the predicates and `relate_to` disagree: `touches` holds, yet
`relate_to` answers `ENCLOSED`, and the answer changes when the other box is mirrored. -/
theorem C13_degenerate_inconsistent : ∃ a b b' : Box, ValidBox a ∧ PosArea b ∧ PosArea b' ∧
    a.touches b = true ∧ a.relateTo b = .enclosed ∧ a.touches b' = true ∧ a.relateTo b' = .touch := by
  refine ⟨⟨0, 2, 0, 0⟩, ⟨0, 2, -1, 0⟩, ⟨0, 2, 0, 1⟩, by norm_num [ValidBox], by norm_num [PosArea],
    by norm_num [PosArea], ?_⟩
  decide +kernel

/-- C14: bounding boxes are tight: they contain every point of the geometry and each side is reached. -/
theorem C14_bounding_box_tight (s : Segment) (m : Multisegmental) (hm : Constructed m) :
    IsTightBox (segPts s) s.boundingBox ∧ IsTightBox (segsPts m.segments) m.boundingBox :=
  ⟨segment_tight s, multisegmental_tight hm⟩

/-- Boundary points of a polygon: points of its border and holes. -/
def Spec.polygonSegments (p : Polygon) : List Segment :=
  p.border.segments ++ p.holes.flatMap Contour.segments

/-- Boundary points of a multipolygon's borders. -/
def Spec.borderPts (m : Multipolygon) : Set Point := {q | ∃ p ∈ m.polygons, q ∈ segsPts p.border.segments}

/-- C14 for polygons and multipolygons: the bounding box is tight for the union of the borders. -/
theorem C14_polygon_bounding_box_tight (p : Polygon) (m : Multipolygon) (hp : 3 ≤ p.border.vertices.length)
    (hm : 1 ≤ m.polygons.length) (hmp : ∀ q ∈ m.polygons, 3 ≤ q.border.vertices.length) :
    IsTightBox (segsPts p.border.segments) p.boundingBox ∧ IsTightBox (borderPts m) m.boundingBox := by
  have hne : ∀ q : Polygon, 3 ≤ q.border.vertices.length → q.border.vertices ≠ [] := by
    intro q h e; simp [e] at h
  refine ⟨contour_tight _ (hne p hp), ?_⟩
  rcases hl : m.polygons with _ | ⟨q, l⟩
  · simp [hl] at hm
  · rw [hl] at hmp
    have hq := contour_tight q.border (hne q (hmp q List.mem_cons_self))
    let pts : {q : Polygon // 3 ≤ q.border.vertices.length} → Set Point := fun q => segsPts q.1.border.segments
    have key := foldl_mergeBox_tight pts (fun q => q.1.boundingBox)
      (fun q => contour_tight _ (hne q.1 q.2))
      (l.attach.map fun q => ⟨q.1, hmp q.1 (List.mem_cons_of_mem _ q.2)⟩) _ _ hq
    have e1 : m.boundingBox = ((l.attach.map fun q => (⟨q.1, hmp q.1 (List.mem_cons_of_mem _ q.2)⟩ :
        {q : Polygon // 3 ≤ q.border.vertices.length})).foldl
        (fun acc q => mergeBox acc q.1.boundingBox) q.border.boundingBox) := by
      unfold Multipolygon.boundingBox
      rw [hl]
      simp only [mergeBoxes, List.foldl_map, Polygon.boundingBox]
      rw [List.foldl_attach (l := l) (f := fun acc (q : Polygon) => mergeBox acc q.border.boundingBox)]
    rw [e1]
    convert key using 1
    ext x
    simp only [borderPts, hl, List.mem_cons, exists_eq_or_imp, Set.mem_union, Set.mem_ofPred_eq, pts,
      List.mem_map, List.mem_attach, true_and, Subtype.exists]
    constructor
    · rintro (h | ⟨r, hr, h⟩)
      · exact Or.inl h
      · exact Or.inr ⟨r, hmp r (List.mem_cons_of_mem _ hr), ⟨r, hr, rfl⟩, h⟩
    · rintro (h | ⟨r, hr, ⟨r', hr', e⟩, h⟩)
      · exact Or.inl h
      · cases e; exact Or.inr ⟨_, hr', h⟩

example : Constructed (.contour ⟨[⟨0, 0⟩, ⟨4, 1⟩, ⟨2, 5⟩]⟩) ∧
    (⟨[⟨0, 0⟩, ⟨4, 1⟩, ⟨2, 5⟩]⟩ : Contour).boundingBox = ⟨0, 4, 0, 5⟩ := by
  refine ⟨by simp [Constructed], ?_⟩
  decide +kernel

/-- C15: the bounding-box shortcuts are sound and exact, for valid (possibly degenerate) boxes: the
"no common continuum" test holds exactly when the rectangles share at most one point; its companion is
its negation; "no common area" means that the open rectangles are disjoint for boxes of positive area. -/
theorem C15_shortcuts (a b : Box) (ha : ValidBox a) (hb : ValidBox b) :
    (doBoxesHaveNoCommonContinuum a b = true → AtMostOne (boxPts a ∩ boxPts b)) ∧
    doBoxesHaveCommonContinuum a b = !doBoxesHaveNoCommonContinuum a b ∧
    doBoxesHaveCommonArea a b = !doBoxesHaveNoCommonArea a b ∧
    (PosArea a → PosArea b →
      (AtMostOne (boxPts a ∩ boxPts b) → doBoxesHaveNoCommonContinuum a b = true) ∧
      (doBoxesHaveNoCommonArea a b = true ↔ boxInterior a ∩ boxInterior b = ∅)) := by
  refine ⟨fun h => atMostOne_of_noCommonContinuum h, ?_, ?_, ?_⟩
  · unfold doBoxesHaveCommonContinuum doBoxesHaveNoCommonContinuum
    simp only [Bool.not_or, Bool.not_and, ne_eq, decide_not, Bool.or_assoc]
  · unfold doBoxesHaveCommonArea doBoxesHaveNoCommonArea
    simp only [Bool.not_or]
  · intro pa pb
    constructor
    · intro h
      by_contra hn
      have hd : ¬ boxPts a ∩ boxPts b = ∅ := by
        intro e
        apply hn
        have := ((C12_box_predicates a b ha hb).2.2.1).mpr e
        simp [doBoxesHaveNoCommonContinuum, this]
      rw [boxPts_inter_empty ha hb] at hd
      push Not at hd
      obtain ⟨h1, h2, h3, h4⟩ := hd
      have hp : (⟨max a.minX b.minX, max a.minY b.minY⟩ : Point) ∈ boxPts a ∩ boxPts b := by
        constructor <;> rw [mem_boxPts] <;> simp [ha.1, ha.2, hb.1, hb.2, h1, h2, h3, h4]
      have hq : (⟨min a.maxX b.maxX, min a.maxY b.maxY⟩ : Point) ∈ boxPts a ∩ boxPts b := by
        constructor <;> rw [mem_boxPts] <;> simp [ha.1, ha.2, hb.1, hb.2, h1, h2, h3, h4]
      have e := h _ hp _ hq
      simp only [Point.mk.injEq] at e
      obtain ⟨ex, ey⟩ := e
      obtain ⟨a1, a2⟩ := pa
      obtain ⟨b1, b2⟩ := pb
      apply hn
      rw [noCommonContinuum_iff]
      grind
    · rw [boxInterior_inter_empty pa pb]
      obtain ⟨a1, a2⟩ := pa
      obtain ⟨b1, b2⟩ := pb
      simp only [doBoxesHaveNoCommonArea, Box.disjointWith, Box.touches, Bool.or_eq_true, decide_eq_true_eq]
      grind

/-- C15 applied to geometries: when the bounding boxes have no common continuum, the geometries share
at most one point. -/
theorem C15_shortcuts_geometries (m n : Multisegmental) (hm : Constructed m) (hn : Constructed n)
    (h : doBoxesHaveNoCommonContinuum m.boundingBox n.boundingBox = true) :
    AtMostOne (segsPts m.segments ∩ segsPts n.segments) :=
  atMostOne_mono (Set.inter_subset_inter (multisegmental_tight hm).1 (multisegmental_tight hn).1)
    (atMostOne_of_noCommonContinuum h)

example : doBoxesHaveNoCommonContinuum ⟨0, 1, 0, 1⟩ ⟨1, 2, 1, 2⟩ = true ∧
    doBoxesHaveNoCommonContinuum ⟨0, 1, 0, 1⟩ ⟨1, 2, 0, 2⟩ = false := by decide +kernel

end Rene
