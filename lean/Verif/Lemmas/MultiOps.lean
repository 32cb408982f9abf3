import Verif.Lemmas.Reg

/-! Operations between a segment and a list of segments. -/

namespace Rene
open Spec

/-! ### intersection -/

theorem noCommon_false {a b : Box} (h : doBoxesHaveCommonContinuum a b = true) :
    doBoxesHaveNoCommonContinuum a b = false := by
  rw [continuum_compl] at h; simpa using h

theorem noCommon_true {a b : Box} (h : ¬ doBoxesHaveCommonContinuum a b = true) :
    doBoxesHaveNoCommonContinuum a b = true := by
  rw [continuum_compl] at h; simpa using h

theorem mem_intersect_iff (first : Segment) (l : List Segment) (r : Segment) :
    r ∈ intersectSegmentWithSegments first l ↔ ∃ s ∈ l,
      doBoxesHaveCommonContinuum s.boundingBox first.boundingBox = true ∧
      intersectSegmentsWithCommonContinuum first.start first.end s.start s.end = some r := by
  simp only [intersectSegmentWithSegments, List.mem_filterMap, List.mem_filter]
  tauto

theorem mem_intersect_iff' (first : Segment) (l : List Segment) (r : Segment) :
    r ∈ intersectSegmentsWithSegment l first ↔ ∃ s ∈ l,
      doBoxesHaveCommonContinuum s.boundingBox first.boundingBox = true ∧
      intersectSegmentsWithCommonContinuum s.start s.end first.start first.end = some r := by
  simp only [intersectSegmentsWithSegment, List.mem_filterMap, List.mem_filter]
  tauto

/-- Finitely many points cover the pairwise single common points. -/
theorem exceptional (first : Segment) (l : List Segment) : ∃ F : List Point, ∀ s ∈ l, Apart first s →
    ∀ p ∈ segPts first ∩ segPts s, p ∈ F := by
  induction l with
  | nil => exact ⟨[], by simp⟩
  | cons s l ih =>
    obtain ⟨F, hF⟩ := ih
    by_cases hne : (segPts first ∩ segPts s).Nonempty
    · obtain ⟨z, hz⟩ := hne
      refine ⟨z :: F, ?_⟩
      intro t ht ha p hp
      rcases List.mem_cons.mp ht with rfl | ht
      · rw [ha p hp z hz]; exact List.mem_cons_self
      · exact List.mem_cons_of_mem _ (hF t ht ha p hp)
    · refine ⟨F, ?_⟩
      intro t ht ha p hp
      rcases List.mem_cons.mp ht with rfl | ht
      · exact (hne ⟨p, hp⟩).elim
      · exact hF t ht ha p hp

/-- The pairwise results, abstractly: either side of the operation. -/
theorem inter_list_spec {first : Segment} {l out : List Segment} (h1 : first.start ≠ first.end)
    (hl : ∀ s ∈ l, s.start ≠ s.end)
    (ho : ∀ r ∈ out, ∃ s ∈ l, r.start ≠ r.end ∧ segPts r = segPts first ∩ segPts s)
    (hi : ∀ s ∈ l, Apart first s ∨ ∃ r ∈ out, segPts r = segPts first ∩ segPts s) :
    (∀ r ∈ out, r.start ≠ r.end) ∧ segsPts out = reg (segPts first ∩ segsPts l) := by
  have hn : ∀ r ∈ out, r.start ≠ r.end := fun r hr => (ho r hr).choose_spec.2.1
  refine ⟨hn, ?_⟩
  obtain ⟨F, hF⟩ := exceptional first l
  apply reg_eq_of_finite hn F
  · rintro p ⟨r, hr, hp⟩ _
    obtain ⟨s, hs, _, e⟩ := ho r hr
    rw [e] at hp
    exact ⟨hp.1, s, hs, hp.2⟩
  · rintro p ⟨hp, s, hs, hp'⟩ hpF
    rcases hi s hs with h | ⟨r, hr, e⟩
    · exact absurd (hF s hs h p ⟨hp, hp'⟩) hpF
    · exact ⟨r, hr, by rw [e]; exact ⟨hp, hp'⟩⟩

theorem intersectSegments_spec (first : Segment) (l : List Segment) (h1 : first.start ≠ first.end)
    (hl : ∀ s ∈ l, s.start ≠ s.end) :
    (∀ r ∈ intersectSegmentWithSegments first l, r.start ≠ r.end) ∧
      segsPts (intersectSegmentWithSegments first l) = reg (segPts first ∩ segsPts l) := by
  apply inter_list_spec h1 hl
  · intro r hr
    obtain ⟨s, hs, hb, e⟩ := (mem_intersect_iff _ _ _).mp hr
    have := interCC_spec h1 (hl s hs) (by rw [noCommonContinuum_comm]; exact noCommon_false hb)
    rw [e] at this
    exact ⟨s, hs, this.1.ne, this.2⟩
  · intro s hs
    by_cases hb : doBoxesHaveCommonContinuum s.boundingBox first.boundingBox = true
    · have := interCC_spec h1 (hl s hs) (by rw [noCommonContinuum_comm]; exact noCommon_false hb)
      cases e : intersectSegmentsWithCommonContinuum first.start first.end s.start s.end with
      | none => rw [e] at this; exact Or.inl this
      | some r =>
        rw [e] at this
        exact Or.inr ⟨r, (mem_intersect_iff _ _ _).mpr ⟨s, hs, hb, e⟩, this.2⟩
    · left
      exact (apart_of_noCommonContinuum (noCommon_true hb)).symm

theorem intersectSegments_spec' (first : Segment) (l : List Segment) (h1 : first.start ≠ first.end)
    (hl : ∀ s ∈ l, s.start ≠ s.end) :
    (∀ r ∈ intersectSegmentsWithSegment l first, r.start ≠ r.end) ∧
      segsPts (intersectSegmentsWithSegment l first) = reg (segPts first ∩ segsPts l) := by
  apply inter_list_spec h1 hl
  · intro r hr
    obtain ⟨s, hs, hb, e⟩ := (mem_intersect_iff' _ _ _).mp hr
    have := interCC_spec (hl s hs) h1 (noCommon_false hb)
    rw [e] at this
    exact ⟨s, hs, this.1.ne, by rw [this.2, Set.inter_comm]⟩
  · intro s hs
    by_cases hb : doBoxesHaveCommonContinuum s.boundingBox first.boundingBox = true
    · have := interCC_spec (hl s hs) h1 (noCommon_false hb)
      cases e : intersectSegmentsWithCommonContinuum s.start s.end first.start first.end with
      | none => rw [e] at this; exact Or.inl (Spec.Apart.symm this)
      | some r =>
        rw [e] at this
        exact Or.inr ⟨r, (mem_intersect_iff' _ _ _).mpr ⟨s, hs, hb, e⟩, by rw [this.2, Set.inter_comm]⟩
    · left
      exact (apart_of_noCommonContinuum (noCommon_true hb)).symm

theorem Apart.mono {s t s' t' : Segment} (h : Apart s t) (h1 : segPts s' ⊆ segPts s)
    (h2 : segPts t' ⊆ segPts t) : Apart s' t' :=
  atMostOne_mono (Set.inter_subset_inter h1 h2) h

/-- a pairwise relation survives `filterMap` when it is inherited by the images -/
theorem pairwise_intersect (first : Segment) (l : List Segment) (h1 : first.start ≠ first.end)
    (hl : NoOverlap l) : (intersectSegmentWithSegments first l).Pairwise Apart ∧
      (intersectSegmentsWithSegment l first).Pairwise Apart := by
  constructor
  · unfold intersectSegmentWithSegments
    rw [List.pairwise_filterMap]
    rw [List.pairwise_filter]
    refine hl.2.imp_of_mem ?_
    intro s t hs ht hst hbs hbt r hr r' hr'
    have k1 := interCC_spec h1 (hl.1 s hs) (by rw [noCommonContinuum_comm]; exact noCommon_false (by simpa using hbs))
    have k2 := interCC_spec h1 (hl.1 t ht) (by rw [noCommonContinuum_comm]; exact noCommon_false (by simpa using hbt))
    rw [hr] at k1; rw [hr'] at k2
    exact Apart.mono hst (by rw [k1.2]; exact Set.inter_subset_right) (by rw [k2.2]; exact Set.inter_subset_right)
  · unfold intersectSegmentsWithSegment
    rw [List.pairwise_filterMap]
    rw [List.pairwise_filter]
    refine hl.2.imp_of_mem ?_
    intro s t hs ht hst hbs hbt r hr r' hr'
    have k1 := interCC_spec (hl.1 s hs) h1 (noCommon_false (by simpa using hbs))
    have k2 := interCC_spec (hl.1 t ht) h1 (noCommon_false (by simpa using hbt))
    rw [hr] at k1; rw [hr'] at k2
    exact Apart.mono hst (by rw [k1.2]; exact Set.inter_subset_left) (by rw [k2.2]; exact Set.inter_subset_left)

/-! ### collecting -/

theorem collectMaybe_spec (l : List Segment) : ∃ g, collectMaybeEmptySegments l = .ok g ∧
    (g = .empty ∨ (∃ r, g = .segment r) ∨ ∃ m, g = .multisegment m) ∧ geomSegs g = l := by
  match l with
  | [] => exact ⟨_, rfl, Or.inl rfl, rfl⟩
  | [s] => exact ⟨_, rfl, Or.inr (Or.inl ⟨_, rfl⟩), rfl⟩
  | s :: t :: l => exact ⟨_, rfl, Or.inr (Or.inr ⟨⟨s :: t :: l⟩, rfl⟩), rfl⟩

theorem collectNonEmpty_spec (l : List Segment) (h : l ≠ []) : ∃ g, collectNonEmptySegments l = .ok g ∧
    ((∃ r, g = .segment r) ∨ ∃ m, g = .multisegment m) ∧ geomSegs g = l := by
  match l, h with
  | [s], _ => exact ⟨_, rfl, Or.inl ⟨_, rfl⟩, rfl⟩
  | s :: t :: l, _ => exact ⟨_, rfl, Or.inr ⟨⟨s :: t :: l⟩, rfl⟩, rfl⟩

end Rene
