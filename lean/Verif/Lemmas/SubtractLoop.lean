import Verif.Lemmas.MultiOps

namespace Rene
open Spec

/-- Collinear pieces: a difference computed on a line.  The pieces are pairs `u < v`. -/
theorem isDiff_line_pieces {c d a b : Point} (hcd : c < d) (hab : a < b) (ha : cr c d a = 0)
    (hb : cr c d b = 0) (l : List Segment)
    (hl : ∀ r ∈ l, cr c d r.start = 0 ∧ cr c d r.end = 0 ∧ r.start < r.end ∧ a ≤ r.start ∧ r.end ≤ b ∧
      (r.end ≤ c ∨ d ≤ r.start))
    (h2 : ∀ p, a ≤ p → p ≤ b → ¬ (c ≤ p ∧ p ≤ d) → ∃ r ∈ l, r.start ≤ p ∧ p ≤ r.end) :
    IsDiff l (seg a b) (seg c d) := by
  refine ⟨?_, ?_, ?_⟩
  · rintro p ⟨r, hr, hp⟩
    obtain ⟨k1, k2, k3, k4, k5, _⟩ := hl r hr
    have := (mem_seg_line hcd.ne k1 k2 k3.le).mp hp
    rw [mem_seg_line hcd.ne ha hb hab.le]
    exact ⟨this.1, k4.trans this.2.1, this.2.2.trans k5⟩
  · rintro p ⟨hp, hp'⟩
    rw [mem_seg_line hcd.ne ha hb hab.le] at hp
    rw [mem_seg_iff_of_le hcd.le] at hp'
    obtain ⟨r, hr, g1, g2⟩ := h2 p hp.2.1 hp.2.2 (fun h => hp' ⟨hp.1, h⟩)
    obtain ⟨k1, k2, k3, _⟩ := hl r hr
    exact ⟨r, hr, (mem_seg_line hcd.ne k1 k2 k3.le).mpr ⟨hp.1, g1, g2⟩⟩
  · intro r hr
    obtain ⟨k1, k2, k3, _, _, k6⟩ := hl r hr
    rintro p ⟨hp, hp'⟩ q ⟨hq, hq'⟩
    have m1 := (mem_seg_line hcd.ne k1 k2 k3.le).mp hp
    have m2 := (mem_seg_line hcd.ne k1 k2 k3.le).mp hq
    have m3 := (mem_seg_iff_of_le hcd.le).mp hp'
    have m4 := (mem_seg_iff_of_le hcd.le).mp hq'
    rcases k6 with k | k
    · exact (le_antisymm (m1.2.2.trans k) m3.2.1).trans (le_antisymm (m2.2.2.trans k) m4.2.1).symm
    · exact (le_antisymm m3.2.2 (k.trans m1.2.1)).trans (le_antisymm m4.2.2 (k.trans m2.2.1)).symm

theorem IsDiff_self_of_apart {s : Segment} {B : Set Point} (h : AtMostOne (segPts s ∩ B)) :
    IsDiff [s] (segPts s) B := by
  refine ⟨(segsPts_single s).subset, ?_, ?_⟩
  · rw [segsPts_single]; exact Set.diff_subset
  · simpa using h

theorem subtractFromOne_spec (c d : Point) (hcd : c < d) (s : Segment) (hs : s.start ≠ s.end)
    (hne : ¬ (c = (toSortedPair s.start s.end).1 ∧ d = (toSortedPair s.start s.end).2)) :
    (∀ r ∈ subtractFromOne c d (toSortedPair s.start s.end).1 (toSortedPair s.start s.end).2 s,
      r.start ≠ r.end) ∧
    (subtractFromOne c d (toSortedPair s.start s.end).1 (toSortedPair s.start s.end).2 s).Pairwise Apart ∧
    IsDiff (subtractFromOne c d (toSortedPair s.start s.end).1 (toSortedPair s.start s.end).2 s)
      (segPts s) (seg c d) := by
  obtain ⟨hab, es⟩ := sorted_spec s hs
  generalize toSortedPair s.start s.end = f at *
  obtain ⟨a, b⟩ := f
  simp only at *
  have same : AtMostOne (seg a b ∩ seg c d) → (∀ r ∈ [s], r.start ≠ r.end) ∧ [s].Pairwise Apart ∧
      IsDiff [s] (segPts s) (seg c d) := by
    intro h
    exact ⟨by simpa using hs, by simp, IsDiff_self_of_apart (by rw [← es]; exact h)⟩
  unfold subtractFromOne
  simp only [sides_iff, swap_mul c d, coll_iff', Point.ltB_iff]
  rcases three_cases hcd hab with h | h | ⟨h, hn, hx⟩
  · rw [if_pos h.1, if_pos h.2]
    obtain ⟨e, h1, h2⟩ := toSegmentsIntersection_spec h.2 h.1
    generalize toSegmentsIntersection a b c d = x at *
    have hxs := openSeg_subset_seg _ _ h1
    obtain ⟨l1, l2⟩ := openSeg_lt hab h1
    have e1 : segsPts [⟨a, x⟩, ⟨x, b⟩] = seg a b := by rw [segsPts_pair]; exact (seg_split hxs).symm
    refine ⟨?_, ?_, ?_, ?_, ?_⟩
    · simp [l1.ne, l2.ne]
    · simpa using (joined_of_subset (s := ⟨a, x⟩) (t := ⟨x, b⟩) l1.ne (seg_inter_adjacent hxs) (Or.inr rfl)).1
    · rw [← es]; exact e1.subset
    · rw [← es, e1]; exact Set.diff_subset
    · simp only [List.mem_cons, List.not_mem_nil, or_false, forall_eq_or_imp, forall_eq]
      constructor
      · apply atMostOne_mono _ (atMostOne_singleton x)
        rw [← e]; exact Set.inter_subset_inter (lerp_mem_seg (start_mem_seg _ _) hxs) (fun _ h => h)
      · apply atMostOne_mono _ (atMostOne_singleton x)
        rw [← e]; exact Set.inter_subset_inter (lerp_mem_seg hxs (end_mem_seg _ _)) (fun _ h => h)
  · obtain ⟨ha, hb⟩ := h
    rw [if_neg (by rw [ha]; simp), if_pos ⟨ha, hb⟩]
    have hc0 := cr_self1 c d
    have hd0 := cr_self2 c d
    have none_ : c ≤ a → b ≤ d → (∀ r ∈ ([] : List Segment), r.start ≠ r.end) ∧
        ([] : List Segment).Pairwise Apart ∧ IsDiff [] (segPts s) (seg c d) := by
      intro h1 h2
      refine ⟨by simp, by simp, ?_⟩
      rw [← es]
      apply isDiff_line_pieces hcd hab ha hb _ (by simp)
      intro p g1 g2 g3
      exact absurd ⟨h1.trans g1, g2.trans h2⟩ g3
    have right_ : a ≤ d → c ≤ a → d < b → (∀ r ∈ [(⟨d, b⟩ : Segment)], r.start ≠ r.end) ∧
        [(⟨d, b⟩ : Segment)].Pairwise Apart ∧ IsDiff [⟨d, b⟩] (segPts s) (seg c d) := by
      intro h1 h2 h3
      refine ⟨by simp [h3.ne], by simp, ?_⟩
      rw [← es]
      apply isDiff_line_pieces hcd hab ha hb
      · simp only [List.mem_singleton, forall_eq]
        exact ⟨hd0, hb, h3, h1, le_refl _, Or.inr (le_refl _)⟩
      · intro p g1 g2 g3
        exact ⟨_, List.mem_singleton.mpr rfl, not_lt.mp fun h => g3 ⟨h2.trans g1, h.le⟩, g2⟩
    have left_ : c ≤ b → b ≤ d → a < c → (∀ r ∈ [(⟨a, c⟩ : Segment)], r.start ≠ r.end) ∧
        [(⟨a, c⟩ : Segment)].Pairwise Apart ∧ IsDiff [⟨a, c⟩] (segPts s) (seg c d) := by
      intro h1 h2 h3
      refine ⟨by simp [h3.ne], by simp, ?_⟩
      rw [← es]
      apply isDiff_line_pieces hcd hab ha hb
      · simp only [List.mem_singleton, forall_eq]
        exact ⟨ha, hc0, h3, le_refl _, h1, Or.inl (le_refl _)⟩
      · intro p g1 g2 g3
        exact ⟨_, List.mem_singleton.mpr rfl, g1, not_lt.mp fun h => g3 ⟨h.le, g2.trans h2⟩⟩
    by_cases q1 : c = a
    · rw [if_pos q1]
      by_cases q2 : d < b
      · rw [if_pos q2]; exact right_ (q1 ▸ hcd.le) q1.le q2
      · rw [if_neg q2]; exact none_ q1.le (not_lt.mp q2)
    rw [if_neg q1]
    by_cases q2 : d = b
    · rw [if_pos q2]
      by_cases q3 : a < c
      · rw [if_pos q3]; exact left_ (q2 ▸ hcd.le) q2.ge q3
      · rw [if_neg q3]; exact none_ (not_lt.mp q3) q2.ge
    rw [if_neg q2]
    by_cases q3 : c < a ∧ a < d
    · rw [if_pos q3]
      by_cases q4 : d < b
      · rw [if_pos q4]; exact right_ q3.2.le q3.1.le q4
      · rw [if_neg q4]; exact none_ q3.1.le (not_lt.mp q4)
    rw [if_neg q3]
    by_cases q4 : a < c ∧ c < b
    · rw [if_pos q4]
      by_cases q5 : d < b
      · rw [if_pos q5]
        refine ⟨by simp [q4.1.ne, q5.ne], ?_, ?_⟩
        · simp only [List.pairwise_cons, List.mem_singleton, forall_eq, List.not_mem_nil, false_implies,
            implies_true, List.Pairwise.nil, and_true]
          rintro p ⟨hp, hp'⟩
          have m1 := (mem_seg_line hcd.ne ha hc0 q4.1.le).mp hp
          have m2 := (mem_seg_line hcd.ne hd0 hb q5.le).mp hp'
          exact absurd (m2.2.1.trans m1.2.2) (not_le.mpr hcd)
        · rw [← es]
          apply isDiff_line_pieces hcd hab ha hb
          · simp only [List.mem_cons, List.not_mem_nil, or_false, forall_eq_or_imp, forall_eq]
            exact ⟨⟨ha, hc0, q4.1, le_refl _, q4.2.le, Or.inl (le_refl _)⟩,
              ⟨hd0, hb, q5, q4.1.le.trans hcd.le, le_refl _, Or.inr (le_refl _)⟩⟩
          · intro p g1 g2 g3
            rcases le_total p c with g | g
            · exact ⟨⟨a, c⟩, by simp, g1, g⟩
            · exact ⟨⟨d, b⟩, by simp, not_lt.mp fun h => g3 ⟨g, h.le⟩, g2⟩
      · rw [if_neg q5]; exact left_ q4.2.le (not_lt.mp q5) q4.1
    rw [if_neg q4]
    apply same
    by_contra hh
    rw [Set.inter_comm, not_atMostOne_collinear hcd hab ha hb] at hh
    rcases lt_or_gt_of_ne q1 with g | g
    · exact q3 ⟨g, lt_of_not_ge fun h => by
        rcases h.eq_or_lt with h | h
        · subst h; exact q4 ⟨absurd g (by simpa using absurd hh.2 (lt_irrefl _)), hh.1⟩
        · exact absurd hh.2 (not_lt.mpr h.le)⟩
    · exact q4 ⟨g, hh.1⟩
  · have hcc : ¬ (cr c d a = 0 ∧ cr c d b = 0) := by
      rintro ⟨h1, h2⟩; rcases hn with hn | hn <;> contradiction
    have h' := same (by rw [Set.inter_comm]; exact h.1)
    by_cases h1 : cr c d a * cr c d b < 0
    · rw [if_pos h1, if_neg (fun h2 => hx ⟨h1, h2⟩)]
      exact h'
    · rw [if_neg h1, if_neg hcc]
      exact h'

theorem IsDiff.append {l l' : List Segment} {A A' B : Set Point} (h : IsDiff l A B) (h' : IsDiff l' A' B) :
    IsDiff (l ++ l') (A ∪ A') B := by
  refine ⟨?_, ?_, ?_⟩
  · rw [segsPts_append]; exact Set.union_subset_union h.sub h'.sub
  · rw [segsPts_append, Set.union_diff_distrib]; exact Set.union_subset_union h.sup h'.sup
  · intro r hr
    rcases List.mem_append.mp hr with hr | hr
    · exact h.apart r hr
    · exact h'.apart r hr

theorem segPts_subset_segsPts {s : Segment} {l : List Segment} (h : s ∈ l) : segPts s ⊆ segsPts l :=
  fun p hp => ⟨s, h, hp⟩

/-- Components apart from `B` are their own difference. -/
theorem IsDiff_of_all_apart {l : List Segment} {B : Set Point} (h : ∀ s ∈ l, AtMostOne (segPts s ∩ B)) :
    IsDiff l (segsPts l) B := ⟨fun _ h => h, Set.diff_subset, h⟩

/-- The loop's result, plus where each piece comes from. -/
theorem subtractLoop_spec (t : Segment) (ht : t.start ≠ t.end) (l : List Segment) (hl : NoOverlap l) :
    NoOverlap (subtractLoop t.boundingBox (toSortedPair t.start t.end).1 (toSortedPair t.start t.end).2 l) ∧
    IsDiff (subtractLoop t.boundingBox (toSortedPair t.start t.end).1 (toSortedPair t.start t.end).2 l)
      (segsPts l) (segPts t) ∧
    ∀ r ∈ subtractLoop t.boundingBox (toSortedPair t.start t.end).1 (toSortedPair t.start t.end).2 l,
      ∃ s ∈ l, segPts r ⊆ segPts s := by
  obtain ⟨hcd, et⟩ := sorted_spec t ht
  induction l with
  | nil =>
    exact ⟨⟨by simp [subtractLoop], by simp [subtractLoop]⟩,
      ⟨by simp [subtractLoop, segsPts_nil], by simp [segsPts_nil], by simp [subtractLoop]⟩,
      by simp [subtractLoop]⟩
  | cons s l ih =>
    have hs : s.start ≠ s.end := hl.1 s List.mem_cons_self
    have hl' : NoOverlap l := ⟨fun r hr => hl.1 r (List.mem_cons_of_mem _ hr), hl.2.of_cons⟩
    have hsl : ∀ r ∈ l, Apart s r := (List.pairwise_cons.mp hl.2).1
    obtain ⟨i1, i2, i3⟩ := ih hl'
    -- joining the head's pieces with the rest
    have join : ∀ o : List Segment, (∀ r ∈ o, r.start ≠ r.end) → o.Pairwise Apart →
        IsDiff o (segPts s) (segPts t) →
        NoOverlap (o ++ subtractLoop t.boundingBox (toSortedPair t.start t.end).1 (toSortedPair t.start t.end).2 l) ∧
        IsDiff (o ++ subtractLoop t.boundingBox (toSortedPair t.start t.end).1 (toSortedPair t.start t.end).2 l)
          (segsPts (s :: l)) (segPts t) ∧
        ∀ r ∈ o ++ subtractLoop t.boundingBox (toSortedPair t.start t.end).1 (toSortedPair t.start t.end).2 l,
          ∃ s' ∈ s :: l, segPts r ⊆ segPts s' := by
      intro o h1 h2 h3
      refine ⟨⟨?_, ?_⟩, ?_, ?_⟩
      · intro r hr
        rcases List.mem_append.mp hr with hr | hr
        · exact h1 r hr
        · exact i1.1 r hr
      · rw [List.pairwise_append]
        refine ⟨h2, i1.2, fun r hr r' hr' => ?_⟩
        obtain ⟨s', hs', hsub⟩ := i3 r' hr'
        exact Apart.mono (hsl s' hs') ((segPts_subset_segsPts hr).trans h3.sub) hsub
      · rw [segsPts_cons]; exact h3.append i2
      · intro r hr
        rcases List.mem_append.mp hr with hr | hr
        · exact ⟨s, List.mem_cons_self, (segPts_subset_segsPts hr).trans h3.sub⟩
        · obtain ⟨s', hs', hsub⟩ := i3 r hr
          exact ⟨s', List.mem_cons_of_mem _ hs', hsub⟩
    unfold subtractLoop
    by_cases hb : s.boundingBox.disjointWith t.boundingBox = true
    · rw [if_pos hb]
      have hd := disjoint_of_disjointWith hb
      have := join [s] (by simpa using hs) (by simp)
        (IsDiff_self_of_apart (by rw [hd]; intro p hp; exact hp.elim))
      simpa using this
    · rw [if_neg hb]
      simp only
      by_cases he : (toSortedPair t.start t.end).1 = (toSortedPair s.start s.end).1 ∧
          (toSortedPair t.start t.end).2 = (toSortedPair s.start s.end).2
      · rw [if_pos he]
        have est : segPts t = segPts s := by
          rw [← et, ← (sorted_spec s hs).2, he.1, he.2]
        refine ⟨hl', ?_, fun r hr => ⟨r, List.mem_cons_of_mem _ hr, fun _ h => h⟩⟩
        rw [est]
        refine ⟨?_, ?_, ?_⟩
        · rw [segsPts_cons]; exact Set.subset_union_right
        · rw [segsPts_cons]
          rintro p ⟨hp | hp, hp'⟩
          · exact absurd hp hp'
          · exact hp
        · intro r hr
          exact (hsl r hr).symm
      · rw [if_neg he]
        obtain ⟨k1, k2, k3⟩ := subtractFromOne_spec _ _ hcd s hs he
        rw [et] at k3
        exact join _ k1 k2 k3

end Rene
