import Verif.Lemmas.Relating
import Verif.Lemmas.BoundingBox
import Verif.Model.Clipping
import Verif.Spec.Geom

namespace Rene
open Spec

theorem toSegmentsIntersection_eq_lerp (a b c d : Point) :
    toSegmentsIntersection a b c d = lerp a b (cr c d a / (cr c d a - cr c d b)) := by
  unfold toSegmentsIntersection toSegmentsIntersectionScale
  have h1 : crossMultiply a c c d = cr c d a := by unfold crossMultiply cr; ring
  have h2 : crossMultiply a b c d = cr c d a - cr c d b := by unfold crossMultiply cr; ring
  rw [h1, h2]
  apply Point.ext' <;> simp only [lerp] <;> ring

theorem opposite_ne {x y : ℚ} (h : x * y < 0) : x - y ≠ 0 := by
  intro e
  have : x = y := by linarith
  rw [this] at h
  nlinarith

theorem cr_toSegmentsIntersection {a b c d : Point} (h : cr c d a - cr c d b ≠ 0) :
    cr c d (toSegmentsIntersection a b c d) = 0 := by
  rw [toSegmentsIntersection_eq_lerp, cr_lerp]
  field_simp; ring

theorem toSegmentsIntersection_openSeg {a b c d : Point} (h : cr c d a * cr c d b < 0) :
    toSegmentsIntersection a b c d ∈ openSeg a b := by
  rw [toSegmentsIntersection_eq_lerp]
  refine ⟨_, ?_, ?_, rfl⟩
  · rcases mul_neg_iff.mp h with ⟨h1, h2⟩ | ⟨h1, h2⟩
    · apply div_pos h1; linarith
    · apply div_pos_of_neg_of_neg h1; linarith
  · rcases mul_neg_iff.mp h with ⟨h1, h2⟩ | ⟨h1, h2⟩
    · rw [div_lt_one (by linarith)]; linarith
    · rw [div_lt_one_of_neg (by linarith)]; linarith

/-- The computed crossing point of properly crossing segments is the only common point. -/
theorem toSegmentsIntersection_spec {a b c d : Point} (h1 : cr a b c * cr a b d < 0)
    (h2 : cr c d a * cr c d b < 0) :
    seg a b ∩ seg c d = {toSegmentsIntersection a b c d} ∧
      toSegmentsIntersection a b c d ∈ openSeg a b ∧ toSegmentsIntersection a b c d ∈ openSeg c d := by
  obtain ⟨p, e, hp1, hp2⟩ := cross_of_opposite h1 h2
  have hab : a ≠ b := by rintro rfl; rw [cr_self3, cr_self3] at h1; simp at h1
  have hcd : c ≠ d := by rintro rfl; rw [cr_self3, cr_self3] at h2; simp at h2
  have hq := toSegmentsIntersection_openSeg h2
  have hq0 := cr_toSegmentsIntersection (opposite_ne h2)
  have hc : cr a b c ≠ 0 := by intro e; rw [e] at h1; simp at h1
  have : toSegmentsIntersection a b c d = p := by
    apply inter_unique hab hcd (Or.inl hc) _ hq0
      (mem_seg_iff.mp ((mem_openSeg_iff hab).mp hp1).1).1 (mem_seg_iff.mp ((mem_openSeg_iff hcd).mp hp2).1).1
    exact (mem_seg_iff.mp ((mem_openSeg_iff hab).mp hq).1).1
  rw [this]
  exact ⟨e, hp1, hp2⟩

theorem openSeg_lt {a b p : Point} (hab : a < b) (h : p ∈ openSeg a b) : a < p ∧ p < b :=
  ((mem_openSeg_iff_of_lt hab).mp h).2

theorem pyMax_eq (a b : Point) : pyMax a b = max a b := by
  unfold pyMax
  by_cases h : a < b
  · rw [if_pos (Point.gtB_iff.mpr h), max_eq_right h.le]
  · rw [if_neg (fun h' => h (Point.gtB_iff.mp h')), max_eq_left (not_lt.mp h)]

theorem pyMin_eq (a b : Point) : pyMin a b = min a b := by
  unfold pyMin
  by_cases h : b < a
  · rw [if_pos (Point.ltB_iff.mpr h), min_eq_right h.le]
  · rw [if_neg (fun h' => h (Point.ltB_iff.mp h')), min_eq_left (not_lt.mp h)]

/-! ### sorted representation -/

/-- sorted endpoints of a non-degenerate segment -/
theorem sorted_spec (s : Segment) (h : s.start ≠ s.end) :
    (toSortedPair s.start s.end).1 < (toSortedPair s.start s.end).2 ∧
      seg (toSortedPair s.start s.end).1 (toSortedPair s.start s.end).2 = segPts s := by
  rcases toSortedPair_cases s.start s.end h with ⟨h, e⟩ | ⟨h, e⟩ <;> rw [e]
  · exact ⟨h, rfl⟩
  · exact ⟨h, seg_comm _ _⟩

/-! ### bounding boxes of segments and common points -/

theorem valid_boundingBox (s : Segment) : ValidBox s.boundingBox := IsTightBox_valid (segment_tight s)

theorem atMostOne_of_noCommonContinuum {a b : Box}
    (h : doBoxesHaveNoCommonContinuum a b = true) : AtMostOne (boxPts a ∩ boxPts b) := by
  simp only [doBoxesHaveNoCommonContinuum, Box.disjointWith, Box.touches, Bool.or_eq_true,
    Bool.and_eq_true, decide_eq_true_eq] at h
  rintro p ⟨hp, hp'⟩ q ⟨hq, hq'⟩
  rw [mem_boxPts] at *
  rcases h with h | ⟨⟨_, hy⟩, hx⟩
  · exfalso; rcases h with ((h | h) | h) | h <;> linarith
  · apply Point.ext'
    · rcases hx with h | h <;> linarith
    · rcases hy with h | h <;> linarith

theorem continuum_compl (a b : Box) :
    doBoxesHaveCommonContinuum a b = !doBoxesHaveNoCommonContinuum a b := by
  simp only [doBoxesHaveCommonContinuum, doBoxesHaveNoCommonContinuum]
  cases a.disjointWith b <;> cases a.touches b <;> simp <;> grind

theorem area_compl (a b : Box) : doBoxesHaveCommonArea a b = !doBoxesHaveNoCommonArea a b := by
  simp [doBoxesHaveCommonArea, doBoxesHaveNoCommonArea]

theorem atMostOne_mono {S T : Set Point} (h : S ⊆ T) (hT : AtMostOne T) : AtMostOne S :=
  fun p hp q hq => hT p (h hp) q (h hq)

theorem apart_of_noCommonContinuum {s t : Segment}
    (h : doBoxesHaveNoCommonContinuum s.boundingBox t.boundingBox = true) : Apart s t :=
  atMostOne_mono (Set.inter_subset_inter (segPts_subset_boundingBox s) (segPts_subset_boundingBox t))
    (atMostOne_of_noCommonContinuum h)

theorem inter_empty_of_disjointWith {a b : Box} (h : a.disjointWith b = true) :
    boxPts a ∩ boxPts b = ∅ := by
  simp only [Box.disjointWith, Bool.or_eq_true, decide_eq_true_eq] at h
  ext p
  simp only [Set.mem_inter_iff, mem_boxPts, Set.mem_empty_iff_false, iff_false]
  rintro ⟨h1, h2⟩
  rcases h with ((h | h) | h) | h <;> linarith

theorem disjoint_of_disjointWith {s t : Segment}
    (h : s.boundingBox.disjointWith t.boundingBox = true) : segPts s ∩ segPts t = ∅ := by
  have := inter_empty_of_disjointWith h
  apply Set.eq_empty_of_subset_empty
  rw [← this]
  exact Set.inter_subset_inter (segPts_subset_boundingBox s) (segPts_subset_boundingBox t)

theorem fst_le_of_lt {a b : Point} (h : a < b) : a.x ≤ b.x := by
  rw [Point.lt_iff] at h; rcases h with h | h <;> linarith

theorem noCommonContinuum_iff {a b : Box} : doBoxesHaveNoCommonContinuum a b = true ↔
    ((a.maxX < b.minX ∨ a.maxY < b.minY ∨ b.maxX < a.minX ∨ b.maxY < a.minY) ∨
      ((((a.minX = b.maxX ∨ a.maxX = b.minX) ∧ (a.minY ≤ b.maxY ∧ b.minY ≤ a.maxY))
        ∨ ((a.minX ≤ b.maxX ∧ b.minX ≤ a.maxX) ∧ (a.minY = b.maxY ∨ b.minY = a.maxY)))
       ∧ (a.minY = b.maxY ∨ b.minY = a.maxY) ∧ (a.minX = b.maxX ∨ b.minX = a.maxX))) := by
  unfold doBoxesHaveNoCommonContinuum Box.disjointWith Box.touches
  simp only [Bool.or_eq_true, Bool.and_eq_true, decide_eq_true_eq, or_assoc, and_assoc]

theorem noCommonContinuum_comm (a b : Box) :
    doBoxesHaveNoCommonContinuum a b = doBoxesHaveNoCommonContinuum b a := by
  rw [Bool.eq_iff_iff, noCommonContinuum_iff, noCommonContinuum_iff]
  grind

/-- Collinear sorted segments `ab`, `cd` with `b ≤ c` have boxes without a common continuum. -/
theorem noCommonContinuum_of_le {a b c d : Point} (hab : a < b) (hcd : c < d) (hc : cr a b c = 0)
    (hd : cr a b d = 0) (h : b ≤ c) :
    doBoxesHaveNoCommonContinuum (Segment.boundingBox ⟨a, b⟩) (Segment.boundingBox ⟨c, d⟩) = true := by
  obtain ⟨α, rfl⟩ := exists_lerp hab.ne hc
  obtain ⟨β, rfl⟩ := exists_lerp hab.ne hd
  have hα : 1 ≤ α := (lerp_le_iff hab).mp (by rw [lerp_one]; exact h)
  have hβ : α < β := (lerp_le_lerp hab).mp hcd
  have hx1 := fst_le_of_lt hab
  have hx2 := fst_le_of_lt hcd
  rw [noCommonContinuum_iff]
  simp only [Segment.boundingBox]
  simp only [max_eq_left hx1, max_eq_left hx2, min_eq_right hx1, min_eq_right hx2]
  simp only [lerp]
  rw [Point.lt_iff] at hab
  rcases eq_or_lt_of_le hα with e | hα'
  · subst e
    have exx : a.x + 1 * (b.x - a.x) = b.x := by ring
    have eyy : a.y + 1 * (b.y - a.y) = b.y := by ring
    rw [exx, eyy]
    have hβx : b.x ≤ a.x + β * (b.x - a.x) := by nlinarith
    have hax : a.x ≤ b.x := hx1
    rcases le_total a.y b.y with hy | hy
    · have hβy : b.y ≤ a.y + β * (b.y - a.y) := by nlinarith
      rw [max_eq_left hy, min_eq_right hy, max_eq_left hβy, min_eq_right hβy]
      right
      refine ⟨Or.inl ⟨Or.inr rfl, by linarith, le_refl _⟩, Or.inr rfl, Or.inr rfl⟩
    · have hβy : a.y + β * (b.y - a.y) ≤ b.y := by nlinarith
      rw [max_eq_right hy, min_eq_left hy, max_eq_right hβy, min_eq_left hβy]
      right
      refine ⟨Or.inl ⟨Or.inr rfl, by linarith, by linarith⟩, Or.inl rfl, Or.inr rfl⟩
  · rcases hab with h | ⟨h, h'⟩
    · have : b.x < a.x + α * (b.x - a.x) := by nlinarith
      left; left; exact this
    · have h1 : b.y < a.y + α * (b.y - a.y) := by nlinarith
      have h2 : b.y < a.y + β * (b.y - a.y) := by nlinarith
      rw [max_eq_left h'.le]
      left; right; left
      exact lt_min h2 h1

theorem boundingBox_comm (a b : Point) : Segment.boundingBox ⟨a, b⟩ = Segment.boundingBox ⟨b, a⟩ := by
  simp only [Segment.boundingBox, min_comm, max_comm]

theorem boundingBox_sorted (s : Segment) :
    Segment.boundingBox ⟨(toSortedPair s.start s.end).1, (toSortedPair s.start s.end).2⟩
      = s.boundingBox := by
  unfold toSortedPair
  split
  · rfl
  · exact boundingBox_comm _ _

/-- Collinear segments whose boxes have a common continuum overlap. -/
theorem overlap_of_commonContinuum {a b c d : Point} (hab : a < b) (hcd : c < d)
    (hc : cr a b c = 0) (hd : cr a b d = 0)
    (h : doBoxesHaveNoCommonContinuum (Segment.boundingBox ⟨a, b⟩) (Segment.boundingBox ⟨c, d⟩)
      = false) : a < d ∧ c < b := by
  have hcd' := collinear_symm hab.ne hc hd
  constructor
  · by_contra hn
    rw [noCommonContinuum_comm, noCommonContinuum_of_le hcd hab hcd'.1 hcd'.2 (not_lt.mp hn)] at h
    exact absurd h (by simp)
  · by_contra hn
    rw [noCommonContinuum_of_le hab hcd hc hd (not_lt.mp hn)] at h
    exact absurd h (by simp)

end Rene
