import Verif.Lemmas.Reg

namespace Rene
open Spec

theorem loc_ite {C : Prop} [Decidable C] :
    ((if C then Location.boundary else Location.exterior) = .boundary ↔ C) ∧
    ((if C then Location.boundary else Location.exterior) = .exterior ↔ ¬ C) ∧
    (if C then Location.boundary else Location.exterior) ≠ .interior := by
  by_cases h : C <;> simp [h]

theorem locatePointInSegment_iff (a b p : Point) : locatePointInSegment a b p = .boundary ↔ p ∈ seg a b := by
  have hcr : orient a b p = .collinear ↔ cr a b p = 0 := orient_collinear
  unfold locatePointInSegment
  rw [loc_ite.1]
  constructor
  · intro hc
    rcases hc with h | h | ⟨hx, hy, ho⟩
    · rw [← h]; exact start_mem_seg _ _
    · rw [← h]; exact end_mem_seg _ _
    · rw [mem_seg_iff_box, mem_boxPts]
      refine ⟨hcr.mp ho, ?_⟩
      simp only [Segment.boundingBox]
      have key : ∀ u v w : ℚ, (if u ≤ v then u ≤ w ∧ w ≤ v else v < w ∧ w < u) →
          min v u ≤ w ∧ w ≤ max v u := by
        intro u v w h
        split at h
        · next g => rw [min_eq_right g, max_eq_left g]; exact h
        · next g =>
          have g := (not_le.mp g).le
          rw [min_eq_left g, max_eq_right g]; exact ⟨h.1.le, h.2.le⟩
      obtain ⟨k1, k2⟩ := key _ _ _ hx
      obtain ⟨k3, k4⟩ := key _ _ _ hy
      exact ⟨k1, k2, k3, k4⟩
  · intro h
    by_cases h1 : a = p
    · exact Or.inl h1
    by_cases h2 : b = p
    · exact Or.inr (Or.inl h2)
    refine Or.inr (Or.inr ⟨?_, ?_, hcr.mpr (mem_seg_iff.mp h).1⟩)
    · have hab : a ≠ b := by
        rintro rfl; obtain ⟨t, _, _, e⟩ := h; rw [lerp_self] at e; exact h1 e.symm
      obtain ⟨t, t0, t1, rfl⟩ := (mem_openSeg_iff hab).mpr ⟨h, Ne.symm h1, Ne.symm h2⟩
      simp only [lerp]
      split
      · constructor <;> nlinarith
      · constructor <;> nlinarith
    · have hab : a ≠ b := by
        rintro rfl; obtain ⟨t, _, _, e⟩ := h; rw [lerp_self] at e; exact h1 e.symm
      obtain ⟨t, t0, t1, rfl⟩ := (mem_openSeg_iff hab).mpr ⟨h, Ne.symm h1, Ne.symm h2⟩
      simp only [lerp]
      split
      · constructor <;> nlinarith
      · constructor <;> nlinarith

theorem locatePointInSegment_ne_interior (a b p : Point) : locatePointInSegment a b p ≠ .interior := by
  unfold locatePointInSegment; exact loc_ite.2.2

theorem locatePointInSegment_exterior (a b p : Point) :
    locatePointInSegment a b p = .exterior ↔ p ∉ seg a b := by
  rw [← locatePointInSegment_iff]
  unfold locatePointInSegment; rw [loc_ite.1, loc_ite.2.1]

theorem locateInSegments_iff (l : List Segment) (p : Point) :
    (locateInSegments l p = .boundary ↔ p ∈ segsPts l) ∧ locateInSegments l p ≠ .interior := by
  induction l with
  | nil => simp [locateInSegments, segsPts_nil]
  | cons s l ih =>
    unfold locateInSegments
    rw [segsPts_cons]
    by_cases h : p ∈ segPts s
    · have : s.locate p = .boundary := (locatePointInSegment_iff _ _ _).mpr h
      simp [this, h]
    · have : s.locate p = .exterior := (locatePointInSegment_exterior _ _ _).mpr h
      simp only [this, ne_eq, not_true_eq_false, if_false, Set.mem_union, h, false_or]
      exact ih

theorem contour_locate_iff (c : Contour) (p : Point) :
    (c.locate p = .boundary ↔ p ∈ segsPts c.segments) ∧ c.locate p ≠ .interior := by
  unfold Contour.locate
  constructor
  · constructor
    · intro h
      split at h
      · simp at h
      · next hn =>
        simp only [List.all_eq_true, decide_eq_true_eq] at hn
        push Not at hn
        obtain ⟨s, hs, hp⟩ := hn
        refine ⟨s, hs, ?_⟩
        by_contra hm
        exact hp ((locatePointInSegment_exterior _ _ _).mpr hm)
    · rintro ⟨s, hs, hp⟩
      rw [if_neg]
      simp only [List.all_eq_true, decide_eq_true_eq]
      intro h
      exact (locatePointInSegment_exterior _ _ _).mp (h s hs) hp
  · split <;> simp

end Rene
