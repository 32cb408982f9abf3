import Verif.Lemmas.Clipping

namespace Rene
open Spec

/-- Membership in a sorted segment whose endpoints lie on the line `ab`. -/
theorem mem_seg_line {a b c d p : Point} (hab : a ≠ b) (hc : cr a b c = 0) (hd : cr a b d = 0)
    (hcd : c ≤ d) : p ∈ seg c d ↔ cr a b p = 0 ∧ c ≤ p ∧ p ≤ d := by
  rw [mem_seg_iff_of_le hcd]
  rcases hcd.eq_or_lt with rfl | hcd
  · constructor
    · rintro ⟨_, h1, h2⟩
      have := le_antisymm h2 h1
      subst this; exact ⟨hc, le_refl _, le_refl _⟩
    · rintro ⟨_, h⟩; exact ⟨cr_self3 _ _, h⟩
  · have h := collinear_symm hab hc hd
    constructor
    · rintro ⟨h0, h1⟩; exact ⟨cr_trans hcd.ne h.1 h.2 h0, h1⟩
    · rintro ⟨h0, h1⟩; exact ⟨cr_trans hab hc hd h0, h1⟩

theorem inter_collinear_eq {a b c d : Point} (hab : a < b) (hcd : c < d) (hc : cr a b c = 0)
    (hd : cr a b d = 0) (h1 : a < d) (h2 : c < b) :
    max a c < min b d ∧ seg (max a c) (min b d) = seg a b ∩ seg c d := by
  have hlt : max a c < min b d := by
    rw [max_lt_iff, lt_min_iff, lt_min_iff]; exact ⟨⟨hab, h1⟩, h2, hcd⟩
  have hmax : cr a b (max a c) = 0 := by
    rcases max_choice a c with e | e <;> rw [e]
    · exact cr_self1 _ _
    · exact hc
  have hmin : cr a b (min b d) = 0 := by
    rcases min_choice b d with e | e <;> rw [e]
    · exact cr_self2 _ _
    · exact hd
  refine ⟨hlt, ?_⟩
  ext p
  rw [mem_seg_line hab.ne hmax hmin hlt.le, mem_inter_collinear hab hcd hc hd, max_le_iff, le_min_iff]
  tauto

theorem Apart_of_not_collinear {s t : Segment} {a b c d : Point} (hab : a < b) (hcd : c < d)
    (hs : seg a b = segPts s) (ht : seg c d = segPts t) (h : cr a b c ≠ 0 ∨ cr a b d ≠ 0) :
    Apart s t := by
  unfold Apart; rw [← hs, ← ht]; exact inter_atMostOne hab.ne hcd.ne h

theorem Spec.Apart.symm {s t : Segment} (h : Apart s t) : Apart t s := by
  unfold Apart at *; rwa [Set.inter_comm]

/-- Specification of the helper under its precondition. -/
theorem interCC_spec {s t : Segment} (hs : s.start ≠ s.end) (ht : t.start ≠ t.end)
    (hbox : doBoxesHaveNoCommonContinuum s.boundingBox t.boundingBox = false) :
    match intersectSegmentsWithCommonContinuum s.start s.end t.start t.end with
    | none => Apart s t
    | some r => r.start < r.end ∧ segPts r = segPts s ∩ segPts t := by
  obtain ⟨hab, es⟩ := sorted_spec s hs
  obtain ⟨hcd, et⟩ := sorted_spec t ht
  rw [← boundingBox_sorted s, ← boundingBox_sorted t] at hbox
  unfold intersectSegmentsWithCommonContinuum
  generalize toSortedPair s.start s.end = f at *
  generalize toSortedPair t.start t.end = g at *
  obtain ⟨a, b⟩ := f
  obtain ⟨c, d⟩ := g
  simp only at *
  simp only [orient_collinear, cr_swap12 a b, neg_eq_zero]
  by_cases hcol : cr a b c = 0 ∧ cr a b d = 0
  · rw [if_pos ⟨Or.inr hcol.1, Or.inr hcol.2⟩]
    simp only
    have h := overlap_of_commonContinuum hab hcd hcol.1 hcol.2 hbox
    rw [pyMax_eq, pyMin_eq]
    obtain ⟨h1, h2⟩ := inter_collinear_eq hab hcd hcol.1 hcol.2 h.1 h.2
    rw [← es, ← et]
    exact ⟨h1, h2⟩
  · rw [if_neg]
    · apply Apart_of_not_collinear hab hcd es et
      by_contra h; push Not at h; exact hcol h
    · rintro ⟨h1, h2⟩
      apply hcol
      constructor
      · rcases h1 with rfl | h1
        · exact cr_self1 _ _
        · exact h1
      · rcases h2 with rfl | h2
        · exact cr_self2 _ _
        · exact h2

theorem intersectSegment_spec (s t : Segment) (hs : s.start ≠ s.end) (ht : t.start ≠ t.end) :
    match intersectSegmentWithSegment s t with
    | .empty => Apart s t
    | .segment r => r.start < r.end ∧ segPts r = segPts s ∩ segPts t
    | _ => False := by
  unfold intersectSegmentWithSegment
  by_cases h : doBoxesHaveNoCommonContinuum s.boundingBox t.boundingBox = true
  · rw [if_pos h]; exact apart_of_noCommonContinuum h
  · rw [if_neg h]
    have := interCC_spec hs ht (by simpa using h)
    revert this
    cases intersectSegmentsWithCommonContinuum s.start s.end t.start t.end <;> exact id

/-! ### pieces -/

theorem Spec.Joined.symm {s t : Segment} (h : Joined s t) : Joined t s :=
  ⟨h.1.symm, by rw [Set.inter_comm]; exact h.2⟩

theorem openSeg_subset_seg (a b : Point) : openSeg a b ⊆ seg a b := by
  rintro p ⟨t, h0, h1, rfl⟩; exact ⟨t, h0.le, h1.le, rfl⟩

theorem joined_of_subset {s t : Segment} {x : Point} (hs : s.start ≠ s.end)
    (h : segPts s ∩ segPts t ⊆ {x}) (hx : x = s.start ∨ x = s.end) : Joined s t := by
  refine ⟨atMostOne_mono h (atMostOne_singleton x), ?_⟩
  apply Set.eq_empty_of_forall_notMem
  rintro p ⟨hp, hp'⟩
  have e : p = x := h ⟨openSeg_subset_seg _ _ hp, openSeg_subset_seg _ _ hp'⟩
  subst e
  rcases hx with h | h
  · rw [h] at hp; exact not_mem_openSeg_left hs hp
  · rw [h] at hp; exact not_mem_openSeg_right hs hp

theorem joined_of_endpoint {s t : Segment} {x : Point} (hs : s.start ≠ s.end) (ht : t.start ≠ t.end)
    (h : segPts s ∩ segPts t ⊆ {x}) (hx : x = s.start ∨ x = s.end ∨ x = t.start ∨ x = t.end) :
    Joined s t := by
  rcases or_assoc.mpr hx with hx | hx
  · exact joined_of_subset hs h hx
  · exact (joined_of_subset ht (by rwa [Set.inter_comm]) hx).symm

theorem seg_inter_adjacent {a b x : Point} (hx : x ∈ seg a b) : seg a x ∩ seg x b ⊆ {x} := by
  by_cases hab : a = b
  · subst hab
    have : x = a := by
      obtain ⟨t, _, _, rfl⟩ := hx; exact lerp_self _ _
    subst this
    rintro p ⟨⟨t, _, _, rfl⟩, _⟩; exact lerp_self _ _
  · rintro p ⟨h1, h2⟩
    have hx' := mem_seg_iff.mp hx
    rcases lt_or_gt_of_ne hab with h | h
    · rw [mem_seg_iff_of_le h.le] at hx
      rw [mem_seg_iff_of_le hx.2.1] at h1
      rw [mem_seg_iff_of_le hx.2.2] at h2
      exact le_antisymm h1.2.2 h2.2.1
    · rw [seg_comm, mem_seg_iff_of_le h.le] at hx
      rw [seg_comm, mem_seg_iff_of_le hx.2.2] at h1
      rw [seg_comm, mem_seg_iff_of_le hx.2.1] at h2
      exact le_antisymm h2.2.2 h1.2.1

theorem opposite_of_orient {a b c d e f : Point} (h1 : orient a b c ≠ .collinear)
    (h2 : orient d e f ≠ .collinear) (h3 : orient a b c ≠ orient d e f) :
    cr a b c * cr d e f < 0 := by
  rw [Ne, orient_collinear] at h1 h2
  rw [Ne, orient_eq_iff] at h3
  have := mul_ne_zero h1 h2
  rcases lt_or_gt_of_ne this with h | h
  · exact h
  · exact absurd (Or.inr h) h3

theorem segsPts_pair (s t : Segment) : segsPts [s, t] = segPts s ∪ segPts t := by
  rw [segsPts_cons, segsPts_cons, segsPts_nil, Set.union_empty]

theorem segsPts_single (s : Segment) : segsPts [s] = segPts s := by
  rw [segsPts_cons, segsPts_nil, Set.union_empty]

/-- Everything about the four pieces of two properly crossing segments. -/
theorem cross_pieces {a b c d x : Point} (hab : a < b) (hcd : c < d)
    (hi : seg a b ∩ seg c d = {x}) (hx : x ∈ openSeg a b) (hx' : x ∈ openSeg c d) :
    segsPts [⟨a, x⟩, ⟨x, b⟩, ⟨c, x⟩, ⟨x, d⟩] = seg a b ∪ seg c d ∧
      WellJoined [⟨a, x⟩, ⟨x, b⟩, ⟨c, x⟩, ⟨x, d⟩] := by
  have hxs := openSeg_subset_seg _ _ hx
  have hxs' := openSeg_subset_seg _ _ hx'
  obtain ⟨h1, h2⟩ := openSeg_lt hab hx
  obtain ⟨h3, h4⟩ := openSeg_lt hcd hx'
  constructor
  · rw [segsPts_cons, segsPts_cons, segsPts_cons, segsPts_cons, segsPts_nil, Set.union_empty,
      seg_split hxs, seg_split hxs', ← Set.union_assoc]; rfl
  · have s1 : seg a x ⊆ seg a b := lerp_mem_seg (start_mem_seg _ _) hxs
    have s2 : seg x b ⊆ seg a b := lerp_mem_seg hxs (end_mem_seg _ _)
    have s3 : seg c x ⊆ seg c d := lerp_mem_seg (start_mem_seg _ _) hxs'
    have s4 : seg x d ⊆ seg c d := lerp_mem_seg hxs' (end_mem_seg _ _)
    have hh : ∀ S T : Set Point, S ⊆ seg a b → T ⊆ seg c d → S ∩ T ⊆ {x} := by
      intro S T hS hT; rw [← hi]; exact Set.inter_subset_inter hS hT
    constructor
    · simp only [List.mem_cons, List.not_mem_nil, or_false]
      rintro s (rfl | rfl | rfl | rfl) <;> simp [h1.ne, h2.ne, h3.ne, h4.ne]
    · simp only [List.pairwise_cons, List.mem_cons, List.not_mem_nil, or_false, false_implies,
        implies_true, List.Pairwise.nil, and_true, forall_eq_or_imp, forall_eq]
      refine ⟨⟨?_, ?_, ?_⟩, ⟨?_, ?_⟩, ?_⟩
      · exact joined_of_subset h1.ne (seg_inter_adjacent hxs) (Or.inr rfl)
      · exact joined_of_subset h1.ne (hh _ _ s1 s3) (Or.inr rfl)
      · exact joined_of_subset h1.ne (hh _ _ s1 s4) (Or.inr rfl)
      · exact joined_of_subset h2.ne (hh _ _ s2 s3) (Or.inl rfl)
      · exact joined_of_subset h2.ne (hh _ _ s2 s4) (Or.inl rfl)
      · exact joined_of_subset h3.ne (seg_inter_adjacent hxs') (Or.inr rfl)

theorem openSeg_sorted (s : Segment) (h : s.start ≠ s.end) :
    openSeg (toSortedPair s.start s.end).1 (toSortedPair s.start s.end).2 = openSeg s.start s.end := by
  rcases toSortedPair_cases s.start s.end h with ⟨h, e⟩ | ⟨h, e⟩ <;> rw [e]
  exact openSeg_comm _ _

theorem joined_of_sorted {s t : Segment} (hs : s.start ≠ s.end) (ht : t.start ≠ t.end)
    (h : Joined ⟨(toSortedPair s.start s.end).1, (toSortedPair s.start s.end).2⟩
      ⟨(toSortedPair t.start t.end).1, (toSortedPair t.start t.end).2⟩) : Joined s t := by
  unfold Joined Apart at *
  simp only [segPts] at h
  rw [(sorted_spec s hs).2, (sorted_spec t ht).2, openSeg_sorted s hs, openSeg_sorted t ht] at h
  exact h

/-- Segments of which one has both endpoints weakly on one side of the other. -/
theorem joined_of_not_cross {a b c d : Point} (hab : a < b) (hcd : c < d)
    (hn : cr a b c ≠ 0 ∨ cr a b d ≠ 0) (hcr : 0 ≤ cr a b c * cr a b d ∨ 0 ≤ cr c d a * cr c d b) :
    Joined ⟨a, b⟩ ⟨c, d⟩ := by
  refine ⟨inter_atMostOne hab.ne hcd.ne hn, ?_⟩
  apply Set.eq_empty_of_forall_notMem
  rintro p ⟨hp, hp'⟩
  have key : ∀ a b c d : Point, (cr a b c ≠ 0 ∨ cr a b d ≠ 0) → 0 ≤ cr a b c * cr a b d →
      p ∈ openSeg c d → cr a b p = 0 → False := by
    rintro a b c d hn h ⟨t, h0, h1, rfl⟩ hz
    rw [cr_lerp] at hz
    rcases mul_nonneg_iff.mp h with ⟨g1, g2⟩ | ⟨g1, g2⟩
    · rcases hn with hn | hn
      · have := lt_of_le_of_ne g1 hn.symm; nlinarith
      · have := lt_of_le_of_ne g2 hn.symm; nlinarith
    · rcases hn with hn | hn
      · have := lt_of_le_of_ne g1 hn; nlinarith
      · have := lt_of_le_of_ne g2 hn; nlinarith
  rcases hcr with h | h
  · exact key a b c d hn h hp' ((mem_openSeg_iff_of_lt hab).mp hp).1
  · refine key c d a b ?_ h hp ((mem_openSeg_iff_of_lt hcd).mp hp').1
    by_contra hz
    push Not at hz
    have := collinear_symm hcd.ne hz.1 hz.2
    rcases hn with hn | hn
    · exact hn this.1
    · exact hn this.2

end Rene
