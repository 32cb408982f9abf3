import Verif.Lemmas.SegmentOps

namespace Rene
open Spec

/-- The "strictly on different sides" test of the code. -/
theorem sides_iff {u v c d : Point} : (orient u v c ≠ .collinear ∧ orient u v d ≠ .collinear
    ∧ orient u v c ≠ orient u v d) ↔ cr u v c * cr u v d < 0 := by
  constructor
  · rintro ⟨h1, h2, h3⟩; exact opposite_of_orient h1 h2 h3
  · intro h
    refine ⟨?_, ?_, ?_⟩
    · rw [Ne, orient_collinear]; intro h0; rw [h0] at h; simp at h
    · rw [Ne, orient_collinear]; intro h0; rw [h0] at h; simp at h
    · rw [Ne, orient_eq_iff]
      rintro (⟨h0, _⟩ | h0)
      · rw [h0] at h; simp at h
      · linarith

theorem swap_mul (a b c d : Point) : cr b a c * cr b a d = cr a b c * cr a b d := by
  rw [cr_swap12 a b c, cr_swap12 a b d]; ring

theorem coll_iff {a b c d : Point} {P : Prop} : (orient b a c = .collinear ∧ orient b a d = .collinear ∧ P)
    ↔ (cr a b c = 0 ∧ cr a b d = 0 ∧ P) := by
  rw [orient_collinear, orient_collinear, cr_swap12 a b c, cr_swap12 a b d, neg_eq_zero, neg_eq_zero]

theorem coll_iff' {a b c d : Point} : (orient b a c = .collinear ∧ orient b a d = .collinear)
    ↔ (cr a b c = 0 ∧ cr a b d = 0) := by
  rw [orient_collinear, orient_collinear, cr_swap12 a b c, cr_swap12 a b d, neg_eq_zero, neg_eq_zero]

theorem newMultisegment_ok {l : List Segment} (h : 2 ≤ l.length) :
    newMultisegment l = .ok (.multisegment ⟨l⟩) := by
  unfold newMultisegment Multisegment.new
  rw [if_neg (by omega)]; rfl

/-- disjoint collinear segments -/
theorem joined_of_disjoint_collinear {a b c d : Point} (hab : a < b) (hcd : c < d) (hc : cr a b c = 0)
    (hd : cr a b d = 0) (h : d < a ∨ b < c) : Joined ⟨a, b⟩ ⟨c, d⟩ := by
  have : seg a b ∩ seg c d ⊆ {a} := by
    intro p hp
    rw [mem_inter_collinear hab hcd hc hd] at hp
    exfalso
    rcases h with h | h
    · exact absurd (lt_of_le_of_lt hp.2.2.2.2 h) (not_lt.mpr hp.2.1)
    · exact absurd (lt_of_le_of_lt hp.2.2.1 h) (not_lt.mpr hp.2.2.2.1)
  exact joined_of_subset hab.ne this (Or.inl rfl)

/-- touching collinear segments -/
theorem joined_of_touching_collinear {a b c d : Point} (hab : a < b) (hcd : c < d) (hc : cr a b c = 0)
    (hd : cr a b d = 0) (h : d ≤ a ∨ b ≤ c) : Joined ⟨a, b⟩ ⟨c, d⟩ := by
  rcases h with h | h
  · refine joined_of_subset (x := a) hab.ne ?_ (Or.inl rfl)
    intro p hp
    have hp := (mem_inter_collinear hab hcd hc hd).mp hp
    exact le_antisymm (hp.2.2.2.2.trans h) hp.2.1
  · refine joined_of_subset (x := b) hab.ne ?_ (Or.inr rfl)
    intro p hp
    have hp := (mem_inter_collinear hab hcd hc hd).mp hp
    exact le_antisymm hp.2.2.1 (h.trans hp.2.2.2.1)

theorem union_collinear_eq {a b c d : Point} (hab : a < b) (hcd : c < d) (hc : cr a b c = 0)
    (hd : cr a b d = 0) (h1 : c ≤ b) (h2 : a ≤ d) :
    min a c < max b d ∧ seg (min a c) (max b d) = seg a b ∪ seg c d := by
  have hlt : min a c < max b d := lt_of_le_of_lt (min_le_left _ _) (lt_of_lt_of_le hab (le_max_left _ _))
  have hmin : cr a b (min a c) = 0 := by
    rcases min_choice a c with e | e <;> rw [e]
    · exact cr_self1 _ _
    · exact hc
  have hmax : cr a b (max b d) = 0 := by
    rcases max_choice b d with e | e <;> rw [e]
    · exact cr_self2 _ _
    · exact hd
  refine ⟨hlt, ?_⟩
  ext p
  rw [mem_seg_line hab.ne hmin hmax hlt.le, Set.mem_union, mem_seg_iff_of_le hab.le,
    mem_seg_line hab.ne hc hd hcd.le, min_le_iff, le_max_iff]
  constructor
  · rintro ⟨h0, h3 | h3, h4 | h4⟩
    · exact Or.inl ⟨h0, h3, h4⟩
    · rcases le_total p b with h | h
      · exact Or.inl ⟨h0, h3, h⟩
      · exact Or.inr ⟨h0, h1.trans h, h4⟩
    · rcases le_total a p with h | h
      · exact Or.inl ⟨h0, h, h4⟩
      · exact Or.inr ⟨h0, h3, h.trans h2⟩
    · exact Or.inr ⟨h0, h3, h4⟩
  · tauto

/-- Classification of two non-degenerate segments. -/
theorem three_cases {a b c d : Point} (hab : a < b) (hcd : c < d) :
    (cr a b c * cr a b d < 0 ∧ cr c d a * cr c d b < 0) ∨ (cr a b c = 0 ∧ cr a b d = 0) ∨
      (Joined ⟨a, b⟩ ⟨c, d⟩ ∧ (cr a b c ≠ 0 ∨ cr a b d ≠ 0)
        ∧ ¬ (cr a b c * cr a b d < 0 ∧ cr c d a * cr c d b < 0)) := by
  by_cases h : cr a b c = 0 ∧ cr a b d = 0
  · exact Or.inr (Or.inl h)
  · have hn : cr a b c ≠ 0 ∨ cr a b d ≠ 0 := by
      by_contra h'; push Not at h'; exact h h'
    by_cases h' : cr a b c * cr a b d < 0 ∧ cr c d a * cr c d b < 0
    · exact Or.inl h'
    · refine Or.inr (Or.inr ⟨joined_of_not_cross hab hcd hn ?_, hn, h'⟩)
      by_contra hh; push Not at hh; exact h' hh

theorem wellJoined_single {s : Segment} (h : s.start ≠ s.end) : WellJoined [s] := by
  constructor
  · simpa using h
  · simp

theorem wellJoined_pair {s t : Segment} (hs : s.start ≠ s.end) (ht : t.start ≠ t.end) (h : Joined s t) :
    WellJoined [s, t] := by
  constructor
  · simp [hs, ht]
  · simpa using h

theorem union_spec (s t : Segment) (hs : s.start ≠ s.end) (ht : t.start ≠ t.end) :
    ∃ g, uniteSegmentWithSegment s t = .ok g ∧ ((∃ r, g = .segment r) ∨ ∃ m, g = .multisegment m) ∧
      linPts g = segPts s ∪ segPts t ∧ WellJoined (geomSegs g) := by
  obtain ⟨hab, es⟩ := sorted_spec s hs
  obtain ⟨hcd, et⟩ := sorted_spec t ht
  have hj := joined_of_sorted hs ht
  unfold uniteSegmentWithSegment
  generalize toSortedPair s.start s.end = f at *
  generalize toSortedPair t.start t.end = g at *
  obtain ⟨a, b⟩ := f
  obtain ⟨c, d⟩ := g
  simp only at *
  simp only [sides_iff, swap_mul a b, coll_iff, Point.leB_iff, pyMax_eq, pyMin_eq]
  have two : Joined ⟨a, b⟩ ⟨c, d⟩ → ∃ g, newMultisegment [s, t] = .ok g ∧
      ((∃ r, g = .segment r) ∨ ∃ m, g = .multisegment m) ∧
      linPts g = segPts s ∪ segPts t ∧ WellJoined (geomSegs g) := by
    intro h
    exact ⟨_, newMultisegment_ok (by simp), Or.inr ⟨_, rfl⟩, segsPts_pair s t,
      wellJoined_pair hs ht (hj h)⟩
  by_cases heq : a = c ∧ b = d
  · rw [if_pos heq]
    obtain ⟨rfl, rfl⟩ := heq
    refine ⟨_, rfl, Or.inl ⟨_, rfl⟩, ?_, wellJoined_single hs⟩
    rw [← et, es, Set.union_self]
    exact segsPts_single s
  rw [if_neg heq]
  rcases three_cases hab hcd with h | h | ⟨h, hn, hx⟩
  · rw [if_pos h.1, if_pos h.2]
    obtain ⟨e, h1, h2⟩ := toSegmentsIntersection_spec h.1 h.2
    obtain ⟨k1, k2⟩ := cross_pieces hab hcd e h1 h2
    refine ⟨_, newMultisegment_ok (by simp), Or.inr ⟨_, rfl⟩, ?_, k2⟩
    rw [← es, ← et]; exact k1
  · rw [if_neg (by rw [h.1]; simp)]
    by_cases hov : c ≤ b ∧ a ≤ d
    · rw [if_pos ⟨h.1, h.2, hov⟩]
      obtain ⟨k1, k2⟩ := union_collinear_eq hab hcd h.1 h.2 hov.1 hov.2
      refine ⟨_, rfl, Or.inl ⟨_, rfl⟩, ?_, wellJoined_single k1.ne⟩
      rw [← es, ← et]
      exact (segsPts_single _).trans k2
    · rw [if_neg (fun h' => hov h'.2.2)]
      apply two
      apply joined_of_disjoint_collinear hab hcd h.1 h.2
      by_contra hh; push Not at hh; exact hov ⟨hh.2, hh.1⟩
  · by_cases h1 : cr a b c * cr a b d < 0
    · rw [if_pos h1, if_neg (fun h2 => hx ⟨h1, h2⟩)]
      exact two h
    · rw [if_neg h1, if_neg (by rintro ⟨h1, h2, _⟩; rcases hn with hn | hn <;> contradiction)]
      exact two h

/-- What a difference `A - B` of linear geometries must satisfy, componentwise. -/
structure IsDiff (l : List Segment) (A B : Set Point) : Prop where
  sub : segsPts l ⊆ A
  sup : A \ B ⊆ segsPts l
  apart : ∀ r ∈ l, AtMostOne (segPts r ∩ B)

theorem diff_spec (s t : Segment) (hs : s.start ≠ s.end) (ht : t.start ≠ t.end) :
    ∃ g, subtractSegmentFromSegment s t = .ok g ∧
      (g = .empty ∨ (∃ r, g = .segment r) ∨ ∃ m, g = .multisegment m) ∧
      IsDiff (geomSegs g) (segPts s) (segPts t) ∧ WellJoined (geomSegs g) := by
  obtain ⟨hab, es⟩ := sorted_spec s hs
  obtain ⟨hcd, et⟩ := sorted_spec t ht
  have hj := joined_of_sorted hs ht
  unfold subtractSegmentFromSegment
  generalize toSortedPair s.start s.end = f at *
  generalize toSortedPair t.start t.end = g at *
  obtain ⟨a, b⟩ := f
  obtain ⟨c, d⟩ := g
  simp only at *
  simp only [sides_iff, swap_mul a b, coll_iff, Point.ltB_iff]
  have emp : seg a b ⊆ seg c d → ∃ g, (Except.ok .empty : Except Err Geom) = .ok g ∧
      (g = .empty ∨ (∃ r, g = .segment r) ∨ ∃ m, g = .multisegment m) ∧
      IsDiff (geomSegs g) (segPts s) (segPts t) ∧ WellJoined (geomSegs g) := by
    intro h
    refine ⟨_, rfl, Or.inl rfl, ⟨?_, ?_, ?_⟩, ?_⟩
    · simp [geomSegs, segsPts_nil]
    · rw [← es, ← et, Set.diff_eq_empty.mpr h]; simp
    · simp [geomSegs]
    · simp [geomSegs, WellJoined]
  have one : Joined ⟨a, b⟩ ⟨c, d⟩ → ∃ g, (Except.ok (.segment s) : Except Err Geom) = .ok g ∧
      (g = .empty ∨ (∃ r, g = .segment r) ∨ ∃ m, g = .multisegment m) ∧
      IsDiff (geomSegs g) (segPts s) (segPts t) ∧ WellJoined (geomSegs g) := by
    intro h
    refine ⟨_, rfl, Or.inr (Or.inl ⟨_, rfl⟩), ⟨?_, ?_, ?_⟩, wellJoined_single hs⟩
    · simp [geomSegs, segsPts_single]
    · simp [geomSegs, segsPts_single, Set.diff_subset]
    · simp only [geomSegs, List.mem_singleton, forall_eq]; exact (hj h).1
  -- one piece `[u, v]` of a collinear pair
  have piece : cr a b c = 0 → cr a b d = 0 → ∀ u v : Point, cr a b u = 0 → cr a b v = 0 → u ≠ v →
      (∀ p, ((u ≤ p ∧ p ≤ v) ∨ (v ≤ p ∧ p ≤ u)) → a ≤ p ∧ p ≤ b) →
      (∀ p, a ≤ p → p ≤ b → ¬ (c ≤ p ∧ p ≤ d) → ((u ≤ p ∧ p ≤ v) ∨ (v ≤ p ∧ p ≤ u))) →
      (∃ z, ∀ p, ((u ≤ p ∧ p ≤ v) ∨ (v ≤ p ∧ p ≤ u)) → c ≤ p → p ≤ d → p = z) →
      ∃ g, (Except.ok (.segment ⟨u, v⟩) : Except Err Geom) = .ok g ∧
      (g = .empty ∨ (∃ r, g = .segment r) ∨ ∃ m, g = .multisegment m) ∧
      IsDiff (geomSegs g) (segPts s) (segPts t) ∧ WellJoined (geomSegs g) := by
    intro hc hd u v hu hv huv h1 h2 ⟨z, h3⟩
    have hm : ∀ p, p ∈ seg u v ↔ cr a b p = 0 ∧ ((u ≤ p ∧ p ≤ v) ∨ (v ≤ p ∧ p ≤ u)) := by
      intro p
      rcases le_total u v with h | h
      · rw [mem_seg_line hab.ne hu hv h]
        constructor
        · tauto
        · rintro ⟨h0, h' | h'⟩
          · exact ⟨h0, h'⟩
          · exact absurd (le_antisymm h (h'.1.trans h'.2)) huv
      · rw [seg_comm, mem_seg_line hab.ne hv hu h]
        constructor
        · tauto
        · rintro ⟨h0, h' | h'⟩
          · exact absurd (le_antisymm (h'.1.trans h'.2) h) huv
          · exact ⟨h0, h'⟩
    refine ⟨_, rfl, Or.inr (Or.inl ⟨_, rfl⟩), ⟨?_, ?_, ?_⟩, wellJoined_single huv⟩
    · simp only [geomSegs, segsPts_single]; rw [← es]; simp only [segPts]
      intro p hp
      rw [hm] at hp
      rw [mem_seg_iff_of_le hab.le]
      exact ⟨hp.1, h1 p hp.2⟩
    · simp only [geomSegs, segsPts_single]; rw [← es, ← et]; simp only [segPts]
      rintro p ⟨hp, hp'⟩
      rw [mem_seg_iff_of_le hab.le] at hp
      rw [mem_seg_line hab.ne hc hd hcd.le] at hp'
      rw [hm]
      exact ⟨hp.1, h2 p hp.2.1 hp.2.2 (fun h => hp' ⟨hp.1, h⟩)⟩
    · simp only [geomSegs, List.mem_singleton, forall_eq]; rw [← et]; simp only [segPts]
      rintro p ⟨hp, hp'⟩ q ⟨hq, hq'⟩
      rw [hm] at hp hq
      rw [mem_seg_line hab.ne hc hd hcd.le] at hp' hq'
      exact (h3 p hp.2 hp'.2.1 hp'.2.2).trans (h3 q hq.2 hq'.2.1 hq'.2.2).symm
  by_cases heq : a = c ∧ b = d
  · rw [if_pos heq]
    obtain ⟨rfl, rfl⟩ := heq
    exact emp (fun _ h => h)
  rw [if_neg heq]
  rcases three_cases hab hcd with h | h | ⟨h, hn, hx⟩
  · rw [if_pos h.1, if_pos h.2]
    obtain ⟨e, h1, h2⟩ := toSegmentsIntersection_spec h.1 h.2
    generalize toSegmentsIntersection a b c d = x at *
    have hxs := openSeg_subset_seg _ _ h1
    obtain ⟨l1, l2⟩ := openSeg_lt hab h1
    have e1 : segsPts [⟨a, x⟩, ⟨x, b⟩] = seg a b := by rw [segsPts_pair]; exact (seg_split hxs).symm
    refine ⟨_, newMultisegment_ok (by simp), Or.inr (Or.inr ⟨_, rfl⟩), ⟨?_, ?_, ?_⟩, ?_⟩
    · rw [← es]; exact e1.subset
    · rw [← es]; simp only [geomSegs]; rw [e1]; exact Set.diff_subset
    · simp only [geomSegs, List.mem_cons, List.not_mem_nil, or_false, forall_eq_or_imp, forall_eq, ← et]
      constructor
      · apply atMostOne_mono _ (atMostOne_singleton x)
        rw [← e]; exact Set.inter_subset_inter (lerp_mem_seg (start_mem_seg _ _) hxs) (fun _ h => h)
      · apply atMostOne_mono _ (atMostOne_singleton x)
        rw [← e]; exact Set.inter_subset_inter (lerp_mem_seg hxs (end_mem_seg _ _)) (fun _ h => h)
    · exact wellJoined_pair l1.ne l2.ne (joined_of_subset l1.ne (seg_inter_adjacent hxs) (Or.inr rfl))
  · obtain ⟨hc, hd⟩ := h
    rw [if_neg (by rw [hc]; simp)]
    have ha0 := cr_self1 a b
    have hb0 := cr_self2 a b
    by_cases hov : c < b ∧ a < d
    · rw [if_pos ⟨hc, hd, hov⟩]
      obtain ⟨o1, o2⟩ := hov
      by_cases q1 : a = c
      · subst q1
        rw [if_pos rfl]
        by_cases q2 : d < b
        · rw [if_pos q2]
          refine piece hc hd d b hd hb0 q2.ne ?_ ?_ ⟨d, ?_⟩
          · rintro p (⟨g1, g2⟩ | ⟨g1, g2⟩)
            · exact ⟨hcd.le.trans g1, g2⟩
            · exact absurd (g1.trans g2) (not_le.mpr q2)
          · intro p g1 g2 g3
            left; exact ⟨not_lt.mp fun h => g3 ⟨g1, h.le⟩, g2⟩
          · rintro p (⟨g1, g2⟩ | ⟨g1, g2⟩) g3 g4
            · exact le_antisymm g4 g1
            · exact absurd (g1.trans g2) (not_le.mpr q2)
        · rw [if_neg q2]
          exact emp ((seg_subset_of_collinear hcd hab
            (collinear_symm hab.ne hc hd).1 (collinear_symm hab.ne hc hd).2).mpr
            ⟨le_refl _, not_lt.mp q2⟩)
      rw [if_neg q1]
      by_cases q2 : b = d
      · subst q2
        rw [if_pos rfl]
        by_cases q3 : c < a
        · rw [if_pos q3]
          exact emp ((seg_subset_of_collinear hcd hab
            (collinear_symm hab.ne hc hd).1 (collinear_symm hab.ne hc hd).2).mpr
            ⟨q3.le, le_refl _⟩)
        · rw [if_neg q3]
          have q4 : a < c := lt_of_le_of_ne (not_lt.mp q3) q1
          refine piece hc hd c a hc ha0 (Ne.symm q1) ?_ ?_ ⟨c, ?_⟩
          · rintro p (⟨g1, g2⟩ | ⟨g1, g2⟩)
            · exact absurd (g1.trans g2) (not_le.mpr q4)
            · exact ⟨g1, g2.trans hcd.le⟩
          · intro p g1 g2 g3
            right; exact ⟨g1, not_lt.mp fun h => g3 ⟨h.le, g2⟩⟩
          · rintro p (⟨g1, g2⟩ | ⟨g1, g2⟩) g3 g4
            · exact absurd (g1.trans g2) (not_le.mpr q4)
            · exact le_antisymm g2 g3
      rw [if_neg q2]
      by_cases q3 : a < c
      · rw [if_pos q3]
        by_cases q4 : d < b
        · rw [if_pos q4]
          have m1 : ∀ p, p ∈ seg a c ↔ _ := fun p => mem_seg_line (p := p) hab.ne ha0 hc q3.le
          have m2 : ∀ p, p ∈ seg d b ↔ _ := fun p => mem_seg_line (p := p) hab.ne hd hb0 q4.le
          have m3 : ∀ p, p ∈ seg c d ↔ _ := fun p => mem_seg_line (p := p) hab.ne hc hd hcd.le
          have m4 : ∀ p, p ∈ seg a b ↔ _ := fun p => mem_seg_line (p := p) hab.ne ha0 hb0 hab.le
          refine ⟨_, newMultisegment_ok (by simp), Or.inr (Or.inr ⟨_, rfl⟩), ⟨?_, ?_, ?_⟩, ?_⟩
          · simp only [geomSegs, segsPts_pair]; rw [← es]; simp only [segPts]
            rintro p (hp | hp)
            · rw [m1] at hp; rw [m4]; exact ⟨hp.1, hp.2.1, hp.2.2.trans o1.le⟩
            · rw [m2] at hp; rw [m4]; exact ⟨hp.1, o2.le.trans hp.2.1, hp.2.2⟩
          · simp only [geomSegs, segsPts_pair]; rw [← es, ← et]; simp only [segPts]
            rintro p ⟨hp, hp'⟩
            rw [Set.mem_union, m1, m2]
            rw [m4] at hp; rw [m3] at hp'
            by_cases g : c ≤ p
            · right; exact ⟨hp.1, not_lt.mp fun h => hp' ⟨hp.1, g, h.le⟩, hp.2.2⟩
            · left; exact ⟨hp.1, hp.2.1, (not_le.mp g).le⟩
          · simp only [geomSegs, List.mem_cons, List.not_mem_nil, or_false, forall_eq_or_imp, forall_eq]; rw [← et]; simp only [segPts]
            constructor
            · rintro p ⟨hp, hp'⟩ q ⟨hq, hq'⟩
              rw [m1] at hp hq; rw [m3] at hp' hq'
              exact (le_antisymm hp.2.2 hp'.2.1).trans (le_antisymm hq.2.2 hq'.2.1).symm
            · rintro p ⟨hp, hp'⟩ q ⟨hq, hq'⟩
              rw [m2] at hp hq; rw [m3] at hp' hq'
              exact (le_antisymm hp'.2.2 hp.2.1).trans (le_antisymm hq'.2.2 hq.2.1).symm
          · refine wellJoined_pair q3.ne q4.ne (joined_of_subset (x := a) q3.ne ?_ (Or.inl rfl))
            rintro p ⟨hp, hp'⟩
            have hp := (m1 p).mp hp
            have hp' := (m2 p).mp hp'
            exact absurd (hp'.2.1.trans hp.2.2) (not_le.mpr hcd)
        · rw [if_neg q4]
          refine piece hc hd a c ha0 hc q3.ne ?_ ?_ ⟨c, ?_⟩
          · rintro p (⟨g1, g2⟩ | ⟨g1, g2⟩)
            · exact ⟨g1, g2.trans o1.le⟩
            · exact absurd (g1.trans g2) (not_le.mpr q3)
          · intro p g1 g2 g3
            left; exact ⟨g1, not_lt.mp fun h => g3 ⟨h.le, g2.trans (not_lt.mp q4)⟩⟩
          · rintro p (⟨g1, g2⟩ | ⟨g1, g2⟩) g3 g4
            · exact le_antisymm g2 g3
            · exact absurd (g1.trans g2) (not_le.mpr q3)
      rw [if_neg q3]
      have q4 : c < a := lt_of_le_of_ne (not_lt.mp q3) (Ne.symm q1)
      rw [if_pos q4]
      by_cases q5 : b < d
      · rw [if_pos q5]
        exact emp ((seg_subset_of_collinear hcd hab
            (collinear_symm hab.ne hc hd).1 (collinear_symm hab.ne hc hd).2).mpr
            ⟨q4.le, q5.le⟩)
      · rw [if_neg q5]
        have q6 : d < b := lt_of_le_of_ne (not_lt.mp q5) (Ne.symm q2)
        refine piece hc hd d b hd hb0 q6.ne ?_ ?_ ⟨d, ?_⟩
        · rintro p (⟨g1, g2⟩ | ⟨g1, g2⟩)
          · exact ⟨o2.le.trans g1, g2⟩
          · exact absurd (g1.trans g2) (not_le.mpr q6)
        · intro p g1 g2 g3
          left; exact ⟨not_lt.mp fun h => g3 ⟨q4.le.trans g1, h.le⟩, g2⟩
        · rintro p (⟨g1, g2⟩ | ⟨g1, g2⟩) g3 g4
          · exact le_antisymm g4 g1
          · exact absurd (g1.trans g2) (not_le.mpr q6)
    · rw [if_neg (fun h' => hov h'.2.2)]
      apply one
      apply joined_of_touching_collinear hab hcd hc hd
      by_contra hh; push Not at hh; exact hov ⟨hh.2, hh.1⟩
  · by_cases h1 : cr a b c * cr a b d < 0
    · rw [if_pos h1, if_neg (fun h2 => hx ⟨h1, h2⟩)]
      exact one h
    · rw [if_neg h1, if_neg (by rintro ⟨h1, h2, _⟩; rcases hn with hn | hn <;> contradiction)]
      exact one h

end Rene

namespace Rene
open Spec

/-- Membership in a segment with endpoints on the line `ab`, in any order. -/
theorem mem_seg_line' {a b c d p : Point} (hab : a ≠ b) (hc : cr a b c = 0) (hd : cr a b d = 0) :
    p ∈ seg c d ↔ cr a b p = 0 ∧ ((c ≤ p ∧ p ≤ d) ∨ (d ≤ p ∧ p ≤ c)) := by
  rcases le_total c d with h | h
  · rw [mem_seg_line hab hc hd h]
    constructor
    · tauto
    · rintro ⟨h0, h' | h'⟩
      · exact ⟨h0, h'⟩
      · have := le_antisymm h (h'.1.trans h'.2)
        subst this; exact ⟨h0, h'⟩
  · rw [seg_comm, mem_seg_line hab hd hc h]
    constructor
    · tauto
    · rintro ⟨h0, h' | h'⟩
      · have := le_antisymm (h'.1.trans h'.2) h
        subst this; exact ⟨h0, h'⟩
      · exact ⟨h0, h'⟩

theorem isDiff_of_line {a b : Point} (hab : a ≠ b) {l : List Segment} {A B : Set Point} {P Q R : Point → Prop}
    (hA : ∀ p, p ∈ A ↔ cr a b p = 0 ∧ P p) (hB : ∀ p, p ∈ B ↔ cr a b p = 0 ∧ Q p)
    (hl : ∀ p, p ∈ segsPts l ↔ cr a b p = 0 ∧ R p)
    (h1 : ∀ p, R p → P p) (h2 : ∀ p, P p → ¬ Q p → R p) (h3 : ∀ r ∈ l, AtMostOne (segPts r ∩ B)) :
    IsDiff l A B := by
  refine ⟨?_, ?_, h3⟩
  · intro p hp; rw [hl] at hp; rw [hA]; exact ⟨hp.1, h1 p hp.2⟩
  · rintro p ⟨hp, hp'⟩
    rw [hA] at hp; rw [hB] at hp'; rw [hl]
    exact ⟨hp.1, h2 p hp.2 (fun h => hp' ⟨hp.1, h⟩)⟩

section order
variable {α : Type} [LinearOrder α] {a b c d p : α}

theorem ord1 (hab : a < b) (had : a < d) : (((b ≤ p ∧ p ≤ d) ∨ (d ≤ p ∧ p ≤ b)) →
      ((a ≤ p ∧ p ≤ b) ∨ (a ≤ p ∧ p ≤ d))) ∧
    (((a ≤ p ∧ p ≤ b) ∨ (a ≤ p ∧ p ≤ d)) → ¬ ((a ≤ p ∧ p ≤ b) ∧ (a ≤ p ∧ p ≤ d)) →
          ((b ≤ p ∧ p ≤ d) ∨ (d ≤ p ∧ p ≤ b))) ∧
    (((b ≤ p ∧ p ≤ d) ∨ (d ≤ p ∧ p ≤ b)) → ((a ≤ p ∧ p ≤ b) ∧ (a ≤ p ∧ p ≤ d)) →
          p = if b ≤ d then b else d) := by grind

theorem ord2 (hab : a < b) (hcb : c < b) : (((a ≤ p ∧ p ≤ c) ∨ (c ≤ p ∧ p ≤ a)) →
      ((a ≤ p ∧ p ≤ b) ∨ (c ≤ p ∧ p ≤ b))) ∧
    (((a ≤ p ∧ p ≤ b) ∨ (c ≤ p ∧ p ≤ b)) → ¬ ((a ≤ p ∧ p ≤ b) ∧ (c ≤ p ∧ p ≤ b)) →
          ((a ≤ p ∧ p ≤ c) ∨ (c ≤ p ∧ p ≤ a))) ∧
    (((a ≤ p ∧ p ≤ c) ∨ (c ≤ p ∧ p ≤ a)) → ((a ≤ p ∧ p ≤ b) ∧ (c ≤ p ∧ p ≤ b)) →
          p = if a ≤ c then c else a) := by grind

theorem ord3 (hab : a < b) (hca : c < a) : (((c ≤ p ∧ p ≤ b) ∨ (b ≤ p ∧ p ≤ c)) →
      ((a ≤ p ∧ p ≤ b) ∨ (c ≤ p ∧ p ≤ a))) ∧
    (((a ≤ p ∧ p ≤ b) ∨ (c ≤ p ∧ p ≤ a)) → ¬ ((a ≤ p ∧ p ≤ b) ∧ (c ≤ p ∧ p ≤ a)) →
          ((c ≤ p ∧ p ≤ b) ∨ (b ≤ p ∧ p ≤ c))) ∧
    (((c ≤ p ∧ p ≤ b) ∨ (b ≤ p ∧ p ≤ c)) → ((a ≤ p ∧ p ≤ b) ∧ (c ≤ p ∧ p ≤ a)) → p = a) := by grind

theorem ord4 (hab : a < b) (hbd : b < d) : (((a ≤ p ∧ p ≤ d) ∨ (d ≤ p ∧ p ≤ a)) →
      ((a ≤ p ∧ p ≤ b) ∨ (b ≤ p ∧ p ≤ d))) ∧
    (((a ≤ p ∧ p ≤ b) ∨ (b ≤ p ∧ p ≤ d)) → ¬ ((a ≤ p ∧ p ≤ b) ∧ (b ≤ p ∧ p ≤ d)) →
          ((a ≤ p ∧ p ≤ d) ∨ (d ≤ p ∧ p ≤ a))) ∧
    (((a ≤ p ∧ p ≤ d) ∨ (d ≤ p ∧ p ≤ a)) → ((a ≤ p ∧ p ≤ b) ∧ (b ≤ p ∧ p ≤ d)) → p = b) := by grind

theorem ord5 (hab : a < b) (hcd : c < d) (hcb : c < b) (had : a < d) :
    ((((a ≤ p ∧ p ≤ c) ∨ (c ≤ p ∧ p ≤ a)) ∨ ((d ≤ p ∧ p ≤ b) ∨ (b ≤ p ∧ p ≤ d))) →
      ((a ≤ p ∧ p ≤ b) ∨ (c ≤ p ∧ p ≤ d))) := by grind

theorem ord6 (hab : a < b) (hcd : c < d) (hcb : c < b) (had : a < d) :
    (((a ≤ p ∧ p ≤ b) ∨ (c ≤ p ∧ p ≤ d)) → ¬ ((a ≤ p ∧ p ≤ b) ∧ (c ≤ p ∧ p ≤ d)) →
      (((a ≤ p ∧ p ≤ c) ∨ (c ≤ p ∧ p ≤ a)) ∨ ((d ≤ p ∧ p ≤ b) ∨ (b ≤ p ∧ p ≤ d)))) := by grind

theorem ord7 (h : (a ≤ p ∧ p ≤ c) ∨ (c ≤ p ∧ p ≤ a)) (h' : (a ≤ p ∧ p ≤ b) ∧ (c ≤ p ∧ p ≤ d)) :
    p = if a ≤ c then c else a := by grind

theorem ord8 (h : (d ≤ p ∧ p ≤ b) ∨ (b ≤ p ∧ p ≤ d)) (h' : (a ≤ p ∧ p ≤ b) ∧ (c ≤ p ∧ p ≤ d)) :
    p = if b ≤ d then b else d := by grind

theorem ord9 (hab : a < b) (hcd : c < d) (hcb : c < b) (had : a < d)
    (h : (a ≤ p ∧ p ≤ c) ∨ (c ≤ p ∧ p ≤ a)) (h' : (d ≤ p ∧ p ≤ b) ∨ (b ≤ p ∧ p ≤ d)) : False := by
  grind

end order

theorem symdiff_spec (s t : Segment) (hs : s.start ≠ s.end) (ht : t.start ≠ t.end) :
    ∃ g, symmetricSubtractSegmentFromSegment s t = .ok g ∧
      (g = .empty ∨ (∃ r, g = .segment r) ∨ ∃ m, g = .multisegment m) ∧
      IsDiff (geomSegs g) (segPts s ∪ segPts t) (segPts s ∩ segPts t) ∧ WellJoined (geomSegs g) := by
  obtain ⟨hab, es⟩ := sorted_spec s hs
  obtain ⟨hcd, et⟩ := sorted_spec t ht
  have hj := joined_of_sorted hs ht
  unfold symmetricSubtractSegmentFromSegment
  generalize toSortedPair s.start s.end = f at *
  generalize toSortedPair t.start t.end = g at *
  obtain ⟨a, b⟩ := f
  obtain ⟨c, d⟩ := g
  simp only at *
  simp only [sides_iff, swap_mul a b, coll_iff', Point.ltB_iff]
  have two : Joined ⟨a, b⟩ ⟨c, d⟩ → ∃ g, newMultisegment [s, t] = .ok g ∧
      (g = .empty ∨ (∃ r, g = .segment r) ∨ ∃ m, g = .multisegment m) ∧
      IsDiff (geomSegs g) (segPts s ∪ segPts t) (segPts s ∩ segPts t) ∧ WellJoined (geomSegs g) := by
    intro h
    refine ⟨_, newMultisegment_ok (by simp), Or.inr (Or.inr ⟨_, rfl⟩), ⟨?_, ?_, ?_⟩,
      wellJoined_pair hs ht (hj h)⟩
    · exact (segsPts_pair s t).subset
    · simp only [geomSegs, segsPts_pair]; exact Set.diff_subset
    · intro r _
      exact atMostOne_mono Set.inter_subset_right (hj h).1
  by_cases heq : c = a ∧ d = b
  · rw [if_pos heq]
    obtain ⟨rfl, rfl⟩ := heq
    refine ⟨_, rfl, Or.inl rfl, ⟨?_, ?_, ?_⟩, ?_⟩
    · simp [geomSegs, segsPts_nil]
    · rw [← es, ← et]; simp
    · simp [geomSegs]
    · simp [geomSegs, WellJoined]
  rw [if_neg heq]
  rcases three_cases hab hcd with h | h | ⟨h, hn, hx⟩
  · rw [if_pos h.1, if_pos h.2]
    obtain ⟨e, h1, h2⟩ := toSegmentsIntersection_spec h.1 h.2
    generalize toSegmentsIntersection a b c d = x at *
    obtain ⟨k1, k2⟩ := cross_pieces hab hcd e h1 h2
    refine ⟨_, newMultisegment_ok (by simp), Or.inr (Or.inr ⟨_, rfl⟩), ⟨?_, ?_, ?_⟩, k2⟩
    · rw [← es, ← et]; exact k1.subset
    · rw [← es, ← et]; simp only [geomSegs, k1]; exact Set.diff_subset
    · intro r _
      rw [← es, ← et, e]; exact atMostOne_mono Set.inter_subset_right (atMostOne_singleton x)
  · obtain ⟨hc, hd⟩ := h
    rw [if_neg (by rw [hc]; simp), if_pos ⟨hc, hd⟩]
    have ha0 := cr_self1 a b
    have hb0 := cr_self2 a b
    have mA : ∀ p, p ∈ segPts s ∪ segPts t ↔ cr a b p = 0 ∧ ((a ≤ p ∧ p ≤ b) ∨ (c ≤ p ∧ p ≤ d)) := by
      intro p
      rw [← es, ← et, Set.mem_union, mem_seg_line hab.ne ha0 hb0 hab.le, mem_seg_line hab.ne hc hd hcd.le]
      exact and_or_left.symm
    have mB : ∀ p, p ∈ segPts s ∩ segPts t ↔ cr a b p = 0 ∧ ((a ≤ p ∧ p ≤ b) ∧ (c ≤ p ∧ p ≤ d)) := by
      intro p
      rw [← es, ← et, Set.mem_inter_iff, mem_seg_line hab.ne ha0 hb0 hab.le,
        mem_seg_line hab.ne hc hd hcd.le]
      exact and_and_left.symm
    have one : ∀ u v : Point, cr a b u = 0 → cr a b v = 0 → u ≠ v →
        (∀ p, ((u ≤ p ∧ p ≤ v) ∨ (v ≤ p ∧ p ≤ u)) → ((a ≤ p ∧ p ≤ b) ∨ (c ≤ p ∧ p ≤ d))) →
        (∀ p, ((a ≤ p ∧ p ≤ b) ∨ (c ≤ p ∧ p ≤ d)) → ¬ ((a ≤ p ∧ p ≤ b) ∧ (c ≤ p ∧ p ≤ d)) →
          ((u ≤ p ∧ p ≤ v) ∨ (v ≤ p ∧ p ≤ u))) →
        (∃ z, ∀ p, ((u ≤ p ∧ p ≤ v) ∨ (v ≤ p ∧ p ≤ u)) → ((a ≤ p ∧ p ≤ b) ∧ (c ≤ p ∧ p ≤ d)) →
          p = z) → ∃ g, (Except.ok (.segment ⟨u, v⟩) : Except Err Geom) = .ok g ∧
        (g = .empty ∨ (∃ r, g = .segment r) ∨ ∃ m, g = .multisegment m) ∧
        IsDiff (geomSegs g) (segPts s ∪ segPts t) (segPts s ∩ segPts t) ∧ WellJoined (geomSegs g) := by
      intro u v hu hv huv h1 h2 ⟨z, h3⟩
      refine ⟨_, rfl, Or.inr (Or.inl ⟨_, rfl⟩), ?_, wellJoined_single huv⟩
      refine isDiff_of_line hab.ne mA mB (fun p => by
        simp only [geomSegs, segsPts_single, segPts]; exact mem_seg_line' hab.ne hu hv) h1 h2 ?_
      simp only [geomSegs, List.mem_singleton, forall_eq]
      have k : ∀ p ∈ segPts (⟨u, v⟩ : Segment) ∩ (segPts s ∩ segPts t), p = z := by
        rintro p ⟨hp, hp'⟩
        rw [mB] at hp'
        exact h3 p ((mem_seg_line' hab.ne hu hv).mp hp).2 hp'.2
      exact fun p hp q hq => (k p hp).trans (k q hq).symm
    by_cases q1 : a = c
    · rw [if_pos q1]
      subst q1
      have : b ≠ d := fun h => heq ⟨rfl, h.symm⟩
      refine one b d hb0 hd this ?_ ?_ ⟨if b ≤ d then b else d, ?_⟩
      · exact fun p => (ord1 hab hcd).1
      · exact fun p => (ord1 hab hcd).2.1
      · exact fun p => (ord1 hab hcd).2.2
    rw [if_neg q1]
    by_cases q2 : b = d
    · rw [if_pos q2]
      subst q2
      refine one a c ha0 hc q1 ?_ ?_ ⟨if a ≤ c then c else a, ?_⟩
      · exact fun p => (ord2 hab hcd).1
      · exact fun p => (ord2 hab hcd).2.1
      · exact fun p => (ord2 hab hcd).2.2
    rw [if_neg q2]
    by_cases q3 : a = d
    · rw [if_pos q3]
      subst q3
      refine one c b hc hb0 (hcd.trans hab).ne ?_ ?_ ⟨a, ?_⟩
      · exact fun p => (ord3 hab hcd).1
      · exact fun p => (ord3 hab hcd).2.1
      · exact fun p => (ord3 hab hcd).2.2
    rw [if_neg q3]
    by_cases q4 : b = c
    · rw [if_pos q4]
      subst q4
      refine one a d ha0 hd (hab.trans hcd).ne ?_ ?_ ⟨b, ?_⟩
      · exact fun p => (ord4 hab hcd).1
      · exact fun p => (ord4 hab hcd).2.1
      · exact fun p => (ord4 hab hcd).2.2
    rw [if_neg q4]
    by_cases q5 : c < b ∧ a < d
    · rw [if_pos q5]
      refine ⟨_, newMultisegment_ok (by simp), Or.inr (Or.inr ⟨_, rfl⟩), ?_, ?_⟩
      · refine isDiff_of_line hab.ne mA mB (R := fun p => ((a ≤ p ∧ p ≤ c) ∨ (c ≤ p ∧ p ≤ a)) ∨
          ((d ≤ p ∧ p ≤ b) ∨ (b ≤ p ∧ p ≤ d))) (fun p => by
          simp only [geomSegs, segsPts_pair, segPts]
          rw [Set.mem_union, mem_seg_line' hab.ne ha0 hc, mem_seg_line' hab.ne hd hb0]; exact and_or_left.symm) ?_ ?_ ?_
        · exact fun p => ord5 hab hcd q5.1 q5.2
        · exact fun p => ord6 hab hcd q5.1 q5.2
        · simp only [geomSegs, List.mem_cons, List.not_mem_nil, or_false, forall_eq_or_imp, forall_eq]
          constructor
          · have k : ∀ p ∈ segPts (⟨a, c⟩ : Segment) ∩ (segPts s ∩ segPts t), p = if a ≤ c then c else a := by
              rintro p ⟨hp, hp'⟩
              rw [mB] at hp'
              have := ((mem_seg_line' hab.ne ha0 hc).mp hp).2
              exact ord7 this hp'.2
            exact fun p hp q hq => (k p hp).trans (k q hq).symm
          · have k : ∀ p ∈ segPts (⟨d, b⟩ : Segment) ∩ (segPts s ∩ segPts t), p = if b ≤ d then b else d := by
              rintro p ⟨hp, hp'⟩
              rw [mB] at hp'
              have := ((mem_seg_line' hab.ne hd hb0).mp hp).2
              exact ord8 this hp'.2
            exact fun p hp q hq => (k p hp).trans (k q hq).symm
      · refine wellJoined_pair q1 (Ne.symm q2) (joined_of_subset (x := a) q1 ?_ (Or.inl rfl))
        rintro p ⟨hp, hp'⟩
        have h1 := ((mem_seg_line' hab.ne ha0 hc).mp hp).2
        have h2 := ((mem_seg_line' hab.ne hd hb0).mp hp').2
        exact (ord9 hab hcd q5.1 q5.2 h1 h2).elim
    · rw [if_neg q5]
      apply two
      apply joined_of_touching_collinear hab hcd hc hd
      by_contra hh; push Not at hh; exact q5 ⟨hh.2, hh.1⟩
  · have hcc : ¬ (cr a b c = 0 ∧ cr a b d = 0) := by
      rintro ⟨h1, h2⟩; rcases hn with hn | hn <;> contradiction
    by_cases h1 : cr a b c * cr a b d < 0
    · rw [if_pos h1, if_neg (fun h2 => hx ⟨h1, h2⟩)]
      exact two h
    · rw [if_neg h1, if_neg hcc]
      exact two h

end Rene
