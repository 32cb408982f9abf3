import Verif.Lemmas.MultiOps
import Verif.Lemmas.SubtractLoop
import Verif.Lemmas.UniteLoop

/-! # C05-C11: boolean operations of a segment with a segment, contour or multisegment

All statements are about `linPts`, the point set of the returned geometry.  `reg` is the one-dimensional
regularisation of a set (isolated points dropped, missing end points added): this is what the library
documents as the result of `&`, `-` and `^` on linear geometries. -/

namespace Rene
open Spec

/-- The result kinds: empty, one segment, or a multisegment (of at least two segments). -/
def LinearResult (g : Geom) : Prop :=
  g = .empty ∨ (∃ r, g = .segment r) ∨ ∃ m : Multisegment, g = .multisegment m ∧ 2 ≤ m.segments.length

theorem multisegmental_tight {m : Multisegmental} (h : Constructed m) :
    IsTightBox (segsPts m.segments) m.boundingBox := by
  cases m with
  | contour c => exact contour_tight c (by intro e; simp [Constructed, e] at h)
  | multisegment m => exact multisegment_tight m (by intro e; simp [Constructed, e] at h)

theorem geomSegs_toGeom (m : Multisegmental) : geomSegs m.toGeom = m.segments := by cases m <;> rfl

theorem segments_ne_nil {m : Multisegmental} (h : Constructed m) : m.segments ≠ [] := by
  obtain ⟨_, ⟨p, ⟨s, hs, _⟩, _⟩, _⟩ := multisegmental_tight h
  exact List.ne_nil_of_mem hs

theorem newMultisegment_ok' (l : List Segment) (h : 2 ≤ l.length) :
    newMultisegment l = .ok (.multisegment ⟨l⟩) := by
  unfold newMultisegment Multisegment.new
  rw [if_neg (by omega)]; rfl

theorem collectMaybe_spec' (l : List Segment) : ∃ g, collectMaybeEmptySegments l = .ok g ∧
    LinearResult g ∧ geomSegs g = l := by
  match l with
  | [] => exact ⟨_, rfl, Or.inl rfl, rfl⟩
  | [s] => exact ⟨_, rfl, Or.inr (Or.inl ⟨_, rfl⟩), rfl⟩
  | s :: t :: l => exact ⟨_, rfl, Or.inr (Or.inr ⟨⟨s :: t :: l⟩, rfl, by simp⟩), rfl⟩

theorem collectNonEmpty_spec' (l : List Segment) (h : l ≠ []) : ∃ g, collectNonEmptySegments l = .ok g ∧
    LinearResult g ∧ geomSegs g = l := by
  match l, h with
  | [s], _ => exact ⟨_, rfl, Or.inr (Or.inl ⟨_, rfl⟩), rfl⟩
  | s :: t :: l, _ => exact ⟨_, rfl, Or.inr (Or.inr ⟨⟨s :: t :: l⟩, rfl, by simp⟩), rfl⟩

/-- A multisegment built by the library from a list always passed the constructor's length check. -/
theorem linearResult_of_ok {e : Except Err Geom} {g : Geom} (h : e = .ok g)
    (h' : g = .empty ∨ (∃ r, g = .segment r) ∨ ∃ m, g = .multisegment m)
    (he : ∀ m, e = .ok (.multisegment m) → 2 ≤ m.segments.length) : LinearResult g := by
  rcases h' with h' | h' | ⟨m, rfl⟩
  · exact Or.inl h'
  · exact Or.inr (Or.inl h')
  · exact Or.inr (Or.inr ⟨m, rfl, he m h⟩)

theorem newMultisegment_length {l : List Segment} {m : Multisegment}
    (h : newMultisegment l = .ok (.multisegment m)) : 2 ≤ m.segments.length := by
  unfold newMultisegment Multisegment.new at h
  by_cases hl : l.length < 2
  · rw [if_pos hl] at h; cases h
  · rw [if_neg hl] at h
    cases h
    simpa using hl

/-- C05: `segment & segment` is `Empty` exactly when the segments share at most one point, and otherwise
a segment whose points are exactly the common points. -/
theorem C05_intersect (s t : Segment) (hs : s.start ≠ s.end) (ht : t.start ≠ t.end) :
    (intersectSegmentWithSegment s t = .empty ∧ AtMostOne (segPts s ∩ segPts t)) ∨
    (∃ r, intersectSegmentWithSegment s t = .segment r ∧ r.start ≠ r.end ∧
      segPts r = segPts s ∩ segPts t ∧ ¬ AtMostOne (segPts s ∩ segPts t)) := by
  have h := intersectSegment_spec s t hs ht
  generalize intersectSegmentWithSegment s t = g at h
  cases g with
  | empty => exact Or.inl ⟨rfl, h⟩
  | segment r =>
    refine Or.inr ⟨r, rfl, h.1.ne, h.2, ?_⟩
    rw [← h.2]
    exact fun k => h.1.ne (k _ (start_mem_seg _ _) _ (end_mem_seg _ _))
  | _ => exact absurd h id

/-- C05 in regularised form, and commutativity on point sets. -/
theorem C05_intersect_reg (s t : Segment) (hs : s.start ≠ s.end) (ht : t.start ≠ t.end) :
    linPts (intersectSegmentWithSegment s t) = reg (segPts s ∩ segPts t) ∧
      linPts (intersectSegmentWithSegment t s) = linPts (intersectSegmentWithSegment s t) := by
  have key : ∀ s t : Segment, s.start ≠ s.end → t.start ≠ t.end →
      linPts (intersectSegmentWithSegment s t) = reg (segPts s ∩ segPts t) := by
    intro s t hs ht
    rcases C05_intersect s t hs ht with ⟨e, h⟩ | ⟨r, e, hr, h, _⟩
    · rw [e, reg_atMostOne h]; exact segsPts_nil
    · rw [e, ← h, reg_segPts hr]; exact segsPts_single r
  refine ⟨key s t hs ht, ?_⟩
  rw [key s t hs ht, key t s ht hs, Set.inter_comm]

example : intersectSegmentWithSegment ⟨⟨0, 0⟩, ⟨4, 4⟩⟩ ⟨⟨6, 6⟩, ⟨1, 1⟩⟩ = .segment ⟨⟨1, 1⟩, ⟨4, 4⟩⟩ ∧
    intersectSegmentWithSegment ⟨⟨0, 0⟩, ⟨4, 4⟩⟩ ⟨⟨0, 4⟩, ⟨4, 0⟩⟩ = .empty := by decide +kernel

/-- C06: `segment | segment` never fails; the result has exactly the points of both, and its components
are non-degenerate, pairwise share at most one point and do not cross. -/
theorem C06_unite (s t : Segment) (hs : s.start ≠ s.end) (ht : t.start ≠ t.end) :
    ∃ g, uniteSegmentWithSegment s t = .ok g ∧ LinearResult g ∧ g ≠ .empty ∧
      linPts g = segPts s ∪ segPts t ∧ WellJoined (geomSegs g) := by
  obtain ⟨g, e, hg, h1, h2⟩ := union_spec s t hs ht
  refine ⟨g, e, ?_, ?_, h1, h2⟩
  · refine linearResult_of_ok e (Or.inr hg) ?_
    intro m hm
    rw [e] at hm
    cases hm
    by_contra hlt
    unfold uniteSegmentWithSegment at e
    simp only at e
    split_ifs at e <;> first | (cases e; done) | exact hlt (newMultisegment_length e)
  · rcases hg with ⟨r, rfl⟩ | ⟨m, rfl⟩ <;> simp

example : uniteSegmentWithSegment ⟨⟨0, 0⟩, ⟨4, 4⟩⟩ ⟨⟨0, 4⟩, ⟨4, 0⟩⟩ =
    .ok (.multisegment ⟨[⟨⟨0, 0⟩, ⟨2, 2⟩⟩, ⟨⟨2, 2⟩, ⟨4, 4⟩⟩, ⟨⟨0, 4⟩, ⟨2, 2⟩⟩, ⟨⟨2, 2⟩, ⟨4, 0⟩⟩]⟩) ∧
    uniteSegmentWithSegment ⟨⟨0, 0⟩, ⟨4, 4⟩⟩ ⟨⟨6, 6⟩, ⟨1, 1⟩⟩ = .ok (.segment ⟨⟨0, 0⟩, ⟨6, 6⟩⟩) := by
  decide +kernel

/-- C07: `segment - segment` never fails; the result is the regularised difference, its components are
non-degenerate, pairwise share at most one point, do not cross, and each of them shares at most one
point with the subtrahend. -/
theorem C07_subtract (s t : Segment) (hs : s.start ≠ s.end) (ht : t.start ≠ t.end) :
    ∃ g, subtractSegmentFromSegment s t = .ok g ∧ LinearResult g ∧
      linPts g = reg (segPts s \ segPts t) ∧ linPts g ⊆ segPts s ∧ segPts s \ segPts t ⊆ linPts g ∧
      (∀ r ∈ geomSegs g, Apart r t) ∧ WellJoined (geomSegs g) := by
  obtain ⟨g, e, hg, h1, h2⟩ := diff_spec s t hs ht
  refine ⟨g, e, ?_, reg_of_isDiff h1 h2.1, h1.sub, h1.sup, h1.apart, h2⟩
  refine linearResult_of_ok e hg ?_
  intro m hm
  rw [e] at hm
  cases hm
  by_contra hlt
  unfold subtractSegmentFromSegment at e
  simp only at e
  split_ifs at e <;> first | (cases e; done) | exact hlt (newMultisegment_length e)

example : subtractSegmentFromSegment ⟨⟨0, 0⟩, ⟨4, 4⟩⟩ ⟨⟨2, 2⟩, ⟨1, 1⟩⟩ =
    .ok (.multisegment ⟨[⟨⟨0, 0⟩, ⟨1, 1⟩⟩, ⟨⟨2, 2⟩, ⟨4, 4⟩⟩]⟩) := by decide +kernel

/-- C08: `segment ^ segment` never fails and is the regularised symmetric difference; it does not depend
on the order of the operands as a set. -/
theorem C08_symmetric_subtract (s t : Segment) (hs : s.start ≠ s.end) (ht : t.start ≠ t.end) :
    ∃ g g', symmetricSubtractSegmentFromSegment s t = .ok g ∧
      symmetricSubtractSegmentFromSegment t s = .ok g' ∧ LinearResult g ∧
      linPts g = reg ((segPts s \ segPts t) ∪ (segPts t \ segPts s)) ∧ linPts g' = linPts g ∧
      (∀ r ∈ geomSegs g, AtMostOne (segPts r ∩ (segPts s ∩ segPts t))) ∧ WellJoined (geomSegs g) := by
  obtain ⟨g, e, hg, h1, h2⟩ := symdiff_spec s t hs ht
  obtain ⟨g', e', hg', h1', h2'⟩ := symdiff_spec t s ht hs
  have hset : (segPts s ∪ segPts t) \ (segPts s ∩ segPts t)
      = (segPts s \ segPts t) ∪ (segPts t \ segPts s) := by
    ext p; simp only [Set.mem_diff, Set.mem_union, Set.mem_inter_iff]; tauto
  refine ⟨g, g', e, e', ?_, ?_, ?_, h1.apart, h2⟩
  · refine linearResult_of_ok e hg ?_
    intro m hm
    rw [e] at hm
    cases hm
    by_contra hlt
    unfold symmetricSubtractSegmentFromSegment at e
    simp only at e
    split_ifs at e <;> first | (cases e; done) | exact hlt (newMultisegment_length e)
  · rw [← hset]; exact reg_of_isDiff h1 h2.1
  · rw [linPts, linPts, reg_of_isDiff h1 h2.1, reg_of_isDiff h1' h2'.1, Set.union_comm, Set.inter_comm]

example : symmetricSubtractSegmentFromSegment ⟨⟨0, 0⟩, ⟨4, 4⟩⟩ ⟨⟨6, 6⟩, ⟨1, 1⟩⟩ =
    .ok (.multisegment ⟨[⟨⟨0, 0⟩, ⟨1, 1⟩⟩, ⟨⟨6, 6⟩, ⟨4, 4⟩⟩]⟩) := by decide +kernel

/-- C09: segment `&` multisegmental (both operand orders): never fails, is the regularised intersection,
and if the components of the multisegmental pairwise share at most one point then so do the components
of the result. -/
theorem C09_intersect_multisegmental (s : Segment) (m : Multisegmental) (hs : s.start ≠ s.end)
    (hm : ∀ r ∈ m.segments, r.start ≠ r.end) :
    (∃ g, intersectSegmentWithMultisegmental s m = .ok g ∧ LinearResult g ∧
      linPts g = reg (segPts s ∩ segsPts m.segments) ∧ (∀ r ∈ geomSegs g, r.start ≠ r.end) ∧
      (NoOverlap m.segments → NoOverlap (geomSegs g))) ∧
    (∃ g, intersectMultisegmentalWithSegment m s = .ok g ∧ LinearResult g ∧
      linPts g = reg (segPts s ∩ segsPts m.segments) ∧ (∀ r ∈ geomSegs g, r.start ≠ r.end) ∧
      (NoOverlap m.segments → NoOverlap (geomSegs g))) := by
  constructor
  · obtain ⟨g, e, hg, hl⟩ := collectMaybe_spec' (intersectSegmentWithSegments s m.segments)
    obtain ⟨h1, h2⟩ := intersectSegments_spec s m.segments hs hm
    refine ⟨g, e, hg, ?_, ?_, ?_⟩
    · rw [linPts, hl, h2]
    · rw [hl]; exact h1
    · intro h; rw [hl]; exact ⟨h1, (pairwise_intersect s m.segments hs h).1⟩
  · obtain ⟨g, e, hg, hl⟩ := collectMaybe_spec' (intersectSegmentsWithSegment m.segments s)
    obtain ⟨h1, h2⟩ := intersectSegments_spec' s m.segments hs hm
    refine ⟨g, e, hg, ?_, ?_, ?_⟩
    · rw [linPts, hl, h2]
    · rw [hl]; exact h1
    · intro h; rw [hl]; exact ⟨h1, (pairwise_intersect s m.segments hs h).2⟩

example : intersectSegmentWithMultisegmental ⟨⟨-1, 0⟩, ⟨9, 0⟩⟩
    (.contour ⟨[⟨0, 0⟩, ⟨4, 0⟩, ⟨4, 4⟩]⟩) = .ok (.segment ⟨⟨0, 0⟩, ⟨4, 0⟩⟩) := by decide +kernel

theorem noded_symm {s t : Segment} (h : Noded s t) : Noded t s := by
  obtain ⟨h1, h2⟩ := h
  refine ⟨?_, fun p hp hp' => (h2 p hp' hp).symm⟩
  unfold Apart at *
  rwa [Set.inter_comm]

/-- C10: segment `|` multisegmental (both operand orders): never fails, has exactly the points of both
operands, components are non-degenerate; and if the components of the multisegmental meet only at
common endpoints then so do the components of the result; if they do not overlap then neither do those of
the result. -/
theorem C10_unite_multisegmental (s : Segment) (m : Multisegmental) (hs : s.start ≠ s.end)
    (hm : ∀ r ∈ m.segments, r.start ≠ r.end) (hc : Constructed m) :
    (∃ g, uniteSegmentWithMultisegmental s m = .ok g ∧ LinearResult g ∧ g ≠ .empty ∧
      linPts g = segPts s ∪ segsPts m.segments ∧ (∀ r ∈ geomSegs g, r.start ≠ r.end) ∧
      (FullyNoded m.segments → FullyNoded (geomSegs g)) ∧
      (NoOverlap m.segments → NoOverlap (geomSegs g))) ∧
    (∃ g, uniteMultisegmentalWithSegment m s = .ok g ∧ LinearResult g ∧ g ≠ .empty ∧
      linPts g = segPts s ∪ segsPts m.segments ∧ (∀ r ∈ geomSegs g, r.start ≠ r.end) ∧
      (FullyNoded m.segments → FullyNoded (geomSegs g)) ∧
      (NoOverlap m.segments → NoOverlap (geomSegs g))) := by
  have hne := segments_ne_nil hc
  have tight := multisegmental_tight hc
  have hu := unite_spec s hs m.segments hm
  have hsub : ∀ r ∈ m.segments, segPts r ⊆ boxPts m.boundingBox :=
    fun r hr p hp => tight.1 ⟨r, hr, hp⟩
  have hpos : 0 < m.segments.length := List.length_pos_iff.mpr hne
  simp only at hu
  obtain ⟨u1, u2, u3, u4, u5⟩ := hu
  constructor
  · unfold uniteSegmentWithMultisegmental
    by_cases h : doBoxesHaveNoCommonContinuum s.boundingBox m.boundingBox = true
    · rw [if_pos h, newMultisegment_ok' _ (by simp; omega)]
      refine ⟨_, rfl, Or.inr (Or.inr ⟨_, rfl, by simp; omega⟩), by simp, ?_, ?_, ?_, ?_⟩
      · exact segsPts_cons _ _
      · intro r hr
        rcases List.mem_cons.mp hr with rfl | hr
        exacts [hs, hm r hr]
      · intro hf
        refine ⟨?_, ?_⟩
        · intro r hr
          rcases List.mem_cons.mp hr with rfl | hr
          exacts [hs, hm r hr]
        · refine List.pairwise_cons.mpr ⟨fun r hr => ?_, hf.2⟩
          exact noded_of_noCommonContinuum hs (hm r hr) (segPts_subset_boundingBox s) (hsub r hr) h
      · intro hf
        refine ⟨?_, ?_⟩
        · intro r hr
          rcases List.mem_cons.mp hr with rfl | hr
          exacts [hs, hm r hr]
        · refine List.pairwise_cons.mpr ⟨fun r hr => ?_, hf.2⟩
          exact (noded_of_noCommonContinuum hs (hm r hr) (segPts_subset_boundingBox s) (hsub r hr) h).1
    · rw [if_neg h]
      obtain ⟨g, e, hg, hl⟩ := collectNonEmpty_spec' _ u3
      refine ⟨g, e, hg, ?_, ?_, ?_, ?_, ?_⟩
      · rintro rfl; exact u3 hl.symm
      · rw [linPts, hl, u1]
      · rw [hl]; exact u2
      · rw [hl]; exact u4
      · rw [hl]; exact u5
  · unfold uniteMultisegmentalWithSegment
    by_cases h : doBoxesHaveNoCommonContinuum m.boundingBox s.boundingBox = true
    · rw [if_pos h, newMultisegment_ok' _ (by simp; omega)]
      have hmem : ∀ r ∈ m.segments ++ [s], r.start ≠ r.end := by
        intro r hr
        rcases List.mem_append.mp hr with hr | hr
        · exact hm r hr
        · rw [List.mem_singleton.mp hr]; exact hs
      refine ⟨_, rfl, Or.inr (Or.inr ⟨_, rfl, by simp; omega⟩), by simp, ?_, hmem, ?_, ?_⟩
      · show segsPts (m.segments ++ [s]) = _
        rw [segsPts_append, segsPts_single, Set.union_comm]
      · intro hf
        refine ⟨hmem, ?_⟩
        refine List.pairwise_append.mpr ⟨hf.2, by simp, fun r hr t ht => ?_⟩
        rw [List.mem_singleton.mp ht]
        exact noded_of_noCommonContinuum (hm r hr) hs (hsub r hr) (segPts_subset_boundingBox s) h
      · intro hf
        refine ⟨hmem, ?_⟩
        refine List.pairwise_append.mpr ⟨hf.2, by simp, fun r hr t ht => ?_⟩
        rw [List.mem_singleton.mp ht]
        exact (noded_of_noCommonContinuum (hm r hr) hs (hsub r hr) (segPts_subset_boundingBox s) h).1
    · rw [if_neg h]
      obtain ⟨g, e, hg, hl⟩ := collectNonEmpty_spec' _ u3
      refine ⟨g, e, hg, ?_, ?_, ?_, ?_, ?_⟩
      · rintro rfl; exact u3 hl.symm
      · rw [linPts, hl, u1]
      · rw [hl]; exact u2
      · rw [hl]; exact u4
      · rw [hl]; exact u5

example : uniteSegmentWithMultisegmental ⟨⟨-1, 1⟩, ⟨9, 1⟩⟩
    (.multisegment ⟨[⟨⟨0, 0⟩, ⟨0, 4⟩⟩, ⟨⟨0, 4⟩, ⟨4, 0⟩⟩]⟩) =
    .ok (.multisegment ⟨[⟨⟨0, 0⟩, ⟨0, 1⟩⟩, ⟨⟨0, 1⟩, ⟨0, 4⟩⟩, ⟨⟨0, 4⟩, ⟨3, 1⟩⟩, ⟨⟨3, 1⟩, ⟨4, 0⟩⟩,
      ⟨⟨-1, 1⟩, ⟨0, 1⟩⟩, ⟨⟨0, 1⟩, ⟨3, 1⟩⟩, ⟨⟨3, 1⟩, ⟨9, 1⟩⟩]⟩) := by decide +kernel

/-- C11: multisegmental `-` segment: never fails and is the regularised difference; components of the
result pairwise share at most one point. The components of the minuend must pairwise share at most one
point (this is what validity of a contour or multisegment gives). -/
theorem C11_subtract_multisegmental (m : Multisegmental) (t : Segment) (ht : t.start ≠ t.end)
    (hm : NoOverlap m.segments) (hc : Constructed m) :
    ∃ g, subtractSegmentFromMultisegmental m t = .ok g ∧ (g = m.toGeom ∨ LinearResult g) ∧
      linPts g = reg (segsPts m.segments \ segPts t) ∧ linPts g ⊆ segsPts m.segments ∧
      segsPts m.segments \ segPts t ⊆ linPts g ∧ (∀ r ∈ geomSegs g, Apart r t) ∧
      NoOverlap (geomSegs g) := by
  unfold subtractSegmentFromMultisegmental
  by_cases h : doBoxesHaveNoCommonContinuum m.boundingBox t.boundingBox = true
  · rw [if_pos h]
    have tight := multisegmental_tight hc
    have hap : ∀ r ∈ m.segments, Apart r t := by
      intro r hr
      exact (noded_of_noCommonContinuum (hm.1 r hr) ht (fun p hp => tight.1 ⟨r, hr, hp⟩)
        (segPts_subset_boundingBox t) h).1
    have hd : IsDiff m.segments (segsPts m.segments) (segPts t) :=
      ⟨le_refl _, Set.diff_subset, hap⟩
    refine ⟨_, rfl, Or.inl rfl, ?_⟩
    rw [linPts, geomSegs_toGeom]
    exact ⟨reg_of_isDiff hd hm.1, hd.sub, hd.sup, hap, hm⟩
  · rw [if_neg h]
    obtain ⟨h1, h2, _⟩ := subtractLoop_spec t ht m.segments hm
    obtain ⟨g, e, hg, hl⟩ := collectMaybe_spec' (subtractLoop t.boundingBox
      (toSortedPair t.start t.end).1 (toSortedPair t.start t.end).2 m.segments)
    refine ⟨g, e, Or.inr hg, ?_⟩
    · rw [linPts, hl]
      exact ⟨reg_of_isDiff h2 h1.1, h2.sub, h2.sup, h2.apart, h1⟩

example : subtractSegmentFromMultisegmental (.contour ⟨[⟨0, 0⟩, ⟨4, 0⟩, ⟨4, 4⟩]⟩) ⟨⟨1, 0⟩, ⟨2, 0⟩⟩ =
    .ok (.multisegment ⟨[⟨⟨0, 0⟩, ⟨1, 0⟩⟩, ⟨⟨2, 0⟩, ⟨4, 0⟩⟩, ⟨⟨4, 0⟩, ⟨4, 4⟩⟩, ⟨⟨4, 4⟩, ⟨0, 0⟩⟩]⟩) := by
  decide +kernel

/-- The hypothesis of C11 is needed: with a repeated component the `break` on an equal component leaves
the repetition in the result. -/
theorem C11_overlap_needed : ∃ (m : Multisegmental) (t : Segment) (g : Geom),
    subtractSegmentFromMultisegmental m t = .ok g ∧ linPts g ≠ reg (segsPts m.segments \ segPts t) := by
  refine ⟨.multisegment ⟨[⟨⟨0, 0⟩, ⟨1, 0⟩⟩, ⟨⟨0, 0⟩, ⟨1, 0⟩⟩]⟩, ⟨⟨0, 0⟩, ⟨1, 0⟩⟩,
    .segment ⟨⟨0, 0⟩, ⟨1, 0⟩⟩, by decide +kernel, ?_⟩
  have e : segsPts (Multisegmental.multisegment ⟨[⟨⟨0, 0⟩, ⟨1, 0⟩⟩, ⟨⟨0, 0⟩, ⟨1, 0⟩⟩]⟩).segments \
      segPts ⟨⟨0, 0⟩, ⟨1, 0⟩⟩ = ∅ := by
    ext p; simp [Multisegmental.segments, segsPts]
  rw [e, reg_atMostOne (by simp [AtMostOne])]
  intro h
  have : (⟨0, 0⟩ : Point) ∈ linPts (.segment ⟨⟨0, 0⟩, ⟨1, 0⟩⟩) := ⟨⟨⟨0, 0⟩, ⟨1, 0⟩⟩, List.mem_singleton.mpr rfl, start_mem_seg _ _⟩
  rw [h] at this
  exact this

end Rene
