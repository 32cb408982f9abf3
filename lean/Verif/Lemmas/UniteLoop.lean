import Verif.Lemmas.SubtractLoop

namespace Rene
open Spec

/-! ### deduplication -/

theorem mem_deduplicate {α : Type} [DecidableEq α] {x : α} : ∀ {l : List α}, x ∈ deduplicate l ↔ x ∈ l
  | [] => by simp [deduplicate]
  | [a] => by simp [deduplicate]
  | a :: b :: rest => by
    have ih := mem_deduplicate (x := x) (l := b :: rest)
    unfold deduplicate
    split
    · next h => subst h; rw [ih]; simp
    · rw [List.mem_cons, ih, List.mem_cons (a := x) (b := a)]

theorem deduplicate_sorted : ∀ {l : List Point}, l.Pairwise (· ≤ ·) → (deduplicate l).Pairwise (· < ·)
  | [], _ => by simp [deduplicate]
  | [a], _ => by simp [deduplicate]
  | a :: b :: rest, h => by
    have ih := deduplicate_sorted (List.pairwise_cons.mp h).2
    unfold deduplicate
    split
    · exact ih
    · next hab =>
      rw [List.pairwise_cons]
      refine ⟨fun x hx => ?_, ih⟩
      rw [mem_deduplicate] at hx
      have hab' : a < b := lt_of_le_of_ne ((List.pairwise_cons.mp h).1 b (by simp)) hab
      rcases List.mem_cons.mp hx with rfl | hx
      · exact hab'
      · exact lt_of_lt_of_le hab' ((List.pairwise_cons.mp (List.pairwise_cons.mp h).2).1 x hx)

theorem mem_pySorted {l : List Point} {z : Point} : z ∈ pySorted Point.leB l ↔ z ∈ l :=
  List.mem_insertionSort _

theorem sorted_pySorted (l : List Point) : (pySorted Point.leB l).Pairwise (· ≤ ·) := by
  haveI : Std.Total (fun a b : Point => a.leB b = true) := ⟨fun a b => by
    rw [Point.leB_iff, Point.leB_iff]; exact le_total a b⟩
  haveI : IsTrans Point (fun a b : Point => a.leB b = true) := ⟨fun a b c => by
    rw [Point.leB_iff, Point.leB_iff, Point.leB_iff]; exact le_trans⟩
  have := List.pairwise_insertionSort (fun a b : Point => a.leB b = true) l
  exact this.imp (fun h => Point.leB_iff.mp h)

/-! ### pieces of a segment between break points -/

theorem Spec.Noded.symm {s t : Segment} (h : Noded s t) : Noded t s :=
  ⟨h.1.symm, fun p h1 h2 => (h.2 p h2 h1).symm⟩

theorem noded_line {a b : Point} (hab : a < b) {r r' : Segment} (h1 : cr a b r.start = 0)
    (h2 : cr a b r.end = 0) (h1' : cr a b r'.start = 0) (h2' : cr a b r'.end = 0)
    (hr : r.start < r.end) (hr' : r'.start < r'.end) (h : r.end ≤ r'.start) : Noded r r' := by
  have key : ∀ p, p ∈ segPts r → p ∈ segPts r' → p = r.end ∧ p = r'.start := by
    intro p hp hp'
    have m1 := (mem_seg_line hab.ne h1 h2 hr.le).mp hp
    have m2 := (mem_seg_line hab.ne h1' h2' hr'.le).mp hp'
    exact ⟨le_antisymm m1.2.2 (h.trans m2.2.1), le_antisymm (m1.2.2.trans h) m2.2.1⟩
  refine ⟨fun p hp q hq => (key p hp.1 hp.2).1.trans (key q hq.1 hq.2).1.symm, fun p hp hp' => ?_⟩
  exact ⟨Or.inr (key p hp hp').1, Or.inl (key p hp hp').2⟩

theorem chain_spec {a b : Point} (hab : a < b) (v : Point) (hv : cr a b v = 0) :
    ∀ (pts : List Point) (u : Point), cr a b u = 0 → u < v →
    (∀ p ∈ pts, cr a b p = 0 ∧ u < p ∧ p < v) → pts.Pairwise (· < ·) →
    segsPts (chainPieces u pts v) = seg u v ∧
    (∀ r ∈ chainPieces u pts v, cr a b r.start = 0 ∧ cr a b r.end = 0 ∧ r.start < r.end ∧ u ≤ r.start ∧
      r.end ≤ v ∧ ∀ z ∈ pts, z ≤ r.start ∨ r.end ≤ z) ∧
    (chainPieces u pts v).Pairwise (fun r r' => r.end ≤ r'.start)
  | [], u, hu, huv, _, _ => by
    refine ⟨segsPts_single _, ?_, ?_⟩
    · simp [chainPieces, hu, hv, huv]
    · simp [chainPieces]
  | p :: rest, u, hu, huv, hp, hs => by
    obtain ⟨hp0, hup, hpv⟩ := hp p List.mem_cons_self
    have hs' := List.pairwise_cons.mp hs
    obtain ⟨i1, i2, i3⟩ := chain_spec hab v hv rest p hp0 hpv
      (fun q hq => ⟨(hp q (List.mem_cons_of_mem _ hq)).1, hs'.1 q hq,
        (hp q (List.mem_cons_of_mem _ hq)).2.2⟩) hs'.2
    refine ⟨?_, ?_, ?_⟩
    · simp only [chainPieces]
      rw [segsPts_cons, i1]
      exact (seg_split ((mem_seg_line hab.ne hu hv huv.le).mpr ⟨hp0, hup.le, hpv.le⟩)).symm
    · intro r hr
      simp only [chainPieces] at hr
      rcases List.mem_cons.mp hr with rfl | hr
      · refine ⟨hu, hp0, hup, le_refl _, hpv.le, fun z hz => Or.inr ?_⟩
        rcases List.mem_cons.mp hz with rfl | hz
        · exact le_refl _
        · exact (hs'.1 z hz).le
      · obtain ⟨k1, k2, k3, k4, k5, k6⟩ := i2 r hr
        refine ⟨k1, k2, k3, hup.le.trans k4, k5, fun z hz => ?_⟩
        rcases List.mem_cons.mp hz with rfl | hz
        · exact Or.inl k4
        · exact k6 z hz
    · simp only [chainPieces]
      rw [List.pairwise_cons]
      exact ⟨fun r hr => (i2 r hr).2.2.2.1, i3⟩

theorem break_spec (s : Segment) (hs : s.start ≠ s.end) (bps : List Point)
    (hb : ∀ z ∈ bps, z ∈ openSeg (toSortedPair s.start s.end).1 (toSortedPair s.start s.end).2) :
    segsPts (breakSegment s (toSortedPair s.start s.end).1 (toSortedPair s.start s.end).2 bps) = segPts s ∧
    FullyNoded (breakSegment s (toSortedPair s.start s.end).1 (toSortedPair s.start s.end).2 bps) ∧
    (∀ r ∈ breakSegment s (toSortedPair s.start s.end).1 (toSortedPair s.start s.end).2 bps,
      segPts r ⊆ segPts s ∧ ∀ z, z = s.start ∨ z = s.end ∨ z ∈ bps → z ∈ segPts r →
        z = r.start ∨ z = r.end) ∧
    breakSegment s (toSortedPair s.start s.end).1 (toSortedPair s.start s.end).2 bps ≠ [] := by
  obtain ⟨hab, es⟩ := sorted_spec s hs
  have hends : ∀ z, z = s.start ∨ z = s.end → z = (toSortedPair s.start s.end).1 ∨
      z = (toSortedPair s.start s.end).2 := by
    rcases toSortedPair_cases s.start s.end hs with ⟨_, e⟩ | ⟨_, e⟩ <;> rw [e] <;> simp only <;> tauto
  generalize hf : toSortedPair s.start s.end = f at *
  obtain ⟨a, b⟩ := f
  simp only at *
  unfold breakSegment
  by_cases hne : bps ≠ []
  · rw [if_pos hne]
    have hmem : ∀ z, z ∈ deduplicate (pySorted Point.leB bps) ↔ z ∈ bps := by
      intro z; rw [mem_deduplicate, mem_pySorted]
    obtain ⟨i1, i2, i3⟩ := chain_spec hab b (cr_self2 a b) (deduplicate (pySorted Point.leB bps)) a
      (cr_self1 a b) hab (fun p hp => by
        have := (mem_openSeg_iff_of_lt hab).mp (hb p ((hmem p).mp hp))
        exact this) (deduplicate_sorted (sorted_pySorted _))
    refine ⟨by rw [← es]; exact i1, ⟨fun r hr => (i2 r hr).2.2.1.ne, ?_⟩, ?_, ?_⟩
    · refine i3.imp_of_mem ?_
      intro r r' hr hr' h
      obtain ⟨k1, k2, k3, _⟩ := i2 r hr
      obtain ⟨k1', k2', k3', _⟩ := i2 r' hr'
      exact noded_line hab k1 k2 k1' k2' k3 k3' h
    · intro r hr
      obtain ⟨k1, k2, k3, k4, k5, k6⟩ := i2 r hr
      refine ⟨?_, ?_⟩
      · rw [← es, ← i1]; exact segPts_subset_segsPts hr
      · intro z hz hzr
        have m := (mem_seg_line hab.ne k1 k2 k3.le).mp hzr
        rw [← or_assoc] at hz
        rcases hz with hz | hz
        · rcases hends z hz with rfl | rfl
          · exact Or.inl (le_antisymm k4 m.2.1)
          · exact Or.inr (le_antisymm m.2.2 k5)
        · rcases k6 z ((hmem z).mpr hz) with h | h
          · exact Or.inl (le_antisymm h m.2.1)
          · exact Or.inr (le_antisymm m.2.2 h)
    · cases deduplicate (pySorted Point.leB bps) <;> simp [chainPieces]
  · rw [if_neg hne]
    push Not at hne
    refine ⟨segsPts_single s, ⟨by simpa using hs, by simp⟩, ?_, by simp⟩
    simp only [List.mem_singleton, forall_eq]
    refine ⟨fun _ h => h, fun z hz _ => ?_⟩
    rw [hne] at hz
    simpa using hz

/-! ### one component -/

structure UniteOne (a b : Point) (s : Segment) (o : List Segment × List Point) : Prop where
  sub : segsPts o.1 ⊆ segPts s
  sup : segPts s ⊆ segsPts o.1 ∪ seg a b
  bps : ∀ z ∈ o.2, z ∈ openSeg a b
  nondeg : ∀ r ∈ o.1, r.start ≠ r.end
  pair : o.1.Pairwise Noded
  apart : ∀ r ∈ o.1, AtMostOne (segPts r ∩ seg a b)
  ends : ∀ r ∈ o.1, ∀ p, p ∈ segPts r → p ∈ seg a b → (p = r.start ∨ p = r.end) ∧ (p = a ∨ p = b ∨ p ∈ o.2)

theorem uniteOne_id {a b : Point} {s : Segment} {bps : List Point} (hs : s.start ≠ s.end)
    (hb : ∀ z ∈ bps, z ∈ openSeg a b)
    (hx : ∃ x, (∀ p, p ∈ segPts s → p ∈ seg a b → p = x) ∧
      (x ∈ segPts s → x ∈ seg a b → (x = s.start ∨ x = s.end) ∧ (x = a ∨ x = b ∨ x ∈ bps))) :
    UniteOne a b s ([s], bps) := by
  obtain ⟨x, h1, h2⟩ := hx
  refine ⟨(segsPts_single s).subset, ?_, hb, by simpa using hs, by simp, ?_, ?_⟩
  · simp only [segsPts_single]; exact Set.subset_union_left
  · simp only [List.mem_singleton, forall_eq]
    exact fun p hp q hq => (h1 p hp.1 hp.2).trans (h1 q hq.1 hq.2).symm
  · simp only [List.mem_singleton, forall_eq]
    intro p hp hp'
    have := h1 p hp hp'
    subst this
    exact h2 hp hp'

/-- pieces of a component collinear with the segment -/
theorem uniteOne_line {a b c d : Point} {s : Segment} (hab : a < b) (hcd : c < d)
    (es : seg c d = segPts s) (hc : cr a b c = 0) (hd : cr a b d = 0) (l : List Segment)
    (hl : ∀ r ∈ l, cr a b r.start = 0 ∧ cr a b r.end = 0 ∧ r.start < r.end ∧ c ≤ r.start ∧ r.end ≤ d ∧
      (r.end = a ∨ r.start = b))
    (h2 : ∀ p, c ≤ p → p ≤ d → ¬ (a ≤ p ∧ p ≤ b) → ∃ r ∈ l, r.start ≤ p ∧ p ≤ r.end)
    (h3 : l.Pairwise Noded) :
    UniteOne a b s (l, []) := by
  have key : ∀ r ∈ l, ∀ p, p ∈ segPts r → p ∈ seg a b → p = a ∧ p = r.end ∨ p = b ∧ p = r.start := by
    intro r hr p hp hp'
    obtain ⟨k1, k2, k3, k4, k5, k6⟩ := hl r hr
    have m1 := (mem_seg_line hab.ne k1 k2 k3.le).mp hp
    have m2 := (mem_seg_iff_of_le hab.le).mp hp'
    rcases k6 with k | k
    · exact Or.inl ⟨le_antisymm (m1.2.2.trans k.le) m2.2.1, le_antisymm m1.2.2 (k.trans_le m2.2.1)⟩
    · exact Or.inr ⟨le_antisymm m2.2.2 (k.symm.trans_le m1.2.1), le_antisymm (m2.2.2.trans k.ge) m1.2.1⟩
  refine ⟨?_, ?_, by simp, fun r hr => (hl r hr).2.2.1.ne, h3, ?_, ?_⟩
  · rintro p ⟨r, hr, hp⟩
    obtain ⟨k1, k2, k3, k4, k5, _⟩ := hl r hr
    have m1 := (mem_seg_line hab.ne k1 k2 k3.le).mp hp
    rw [← es, mem_seg_line hab.ne hc hd hcd.le]
    exact ⟨m1.1, k4.trans m1.2.1, m1.2.2.trans k5⟩
  · intro p hp
    rw [← es, mem_seg_line hab.ne hc hd hcd.le] at hp
    by_cases h : a ≤ p ∧ p ≤ b
    · right; exact (mem_seg_iff_of_le hab.le).mpr ⟨hp.1, h⟩
    · left
      obtain ⟨r, hr, g⟩ := h2 p hp.2.1 hp.2.2 h
      obtain ⟨k1, k2, k3, _⟩ := hl r hr
      exact ⟨r, hr, (mem_seg_line hab.ne k1 k2 k3.le).mpr ⟨hp.1, g⟩⟩
  · intro r hr
    obtain ⟨k1, k2, k3, k4, k5, k6⟩ := hl r hr
    rintro p ⟨hp, hp'⟩ q ⟨hq, hq'⟩
    rcases key r hr p hp hp' with h | h <;> rcases key r hr q hq hq' with h' | h'
    · exact h.1.trans h'.1.symm
    · rcases k6 with k | k
      · rw [h.2, k]; exfalso
        have := h'.2.symm.trans h'.1
        rw [k, this] at k3; exact absurd k3 (not_lt.mpr hab.le)
      · exfalso
        have := h.2.symm.trans h.1
        rw [k, this] at k3; exact absurd k3 (not_lt.mpr hab.le)
    · exfalso
      have e1 := h'.2.symm.trans h'.1
      have e2 := h.2.symm.trans h.1
      rw [e1, e2] at k3; exact absurd k3 (not_lt.mpr hab.le)
    · exact h.1.trans h'.1.symm
  · intro r hr p hp hp'
    rcases key r hr p hp hp' with h | h
    · exact ⟨Or.inr h.2, Or.inl h.1⟩
    · exact ⟨Or.inl h.2, Or.inr (Or.inl h.1)⟩

/-- a component split in two at a point of the segment -/
theorem uniteOne_split {a b c d x : Point} {s : Segment} {bps : List Point}
    (es : seg c d = segPts s) (hx : x ∈ openSeg c d) (hcd : c < d)
    (hi : ∀ p, p ∈ seg c d → p ∈ seg a b → p = x) (hb : ∀ z ∈ bps, z ∈ openSeg a b)
    (hxb : x = a ∨ x = b ∨ x ∈ bps) : UniteOne a b s ([⟨c, x⟩, ⟨x, d⟩], bps) := by
  have hxs := openSeg_subset_seg _ _ hx
  obtain ⟨h1, h2⟩ := openSeg_lt hcd hx
  have e1 : segsPts [⟨c, x⟩, ⟨x, d⟩] = seg c d := by rw [segsPts_pair]; exact (seg_split hxs).symm
  have s1 : seg c x ⊆ seg c d := lerp_mem_seg (start_mem_seg _ _) hxs
  have s2 : seg x d ⊆ seg c d := lerp_mem_seg hxs (end_mem_seg _ _)
  refine ⟨by rw [← es]; exact e1.subset, by simp only [e1, ← es]; exact Set.subset_union_left, hb, ?_, ?_, ?_, ?_⟩
  · simp [h1.ne, h2.ne]
  · simp only [List.pairwise_cons, List.mem_singleton, forall_eq, List.not_mem_nil, false_implies,
      implies_true, List.Pairwise.nil, and_true]
    have hc0 := cr_self1 c d
    have hd0 := cr_self2 c d
    have hx0 := (mem_seg_iff.mp hxs).1
    exact noded_line hcd hc0 hx0 hx0 hd0 h1 h2 (le_refl _)
  · simp only [List.mem_cons, List.not_mem_nil, or_false, forall_eq_or_imp, forall_eq]
    exact ⟨fun p hp q hq => (hi p (s1 hp.1) hp.2).trans (hi q (s1 hq.1) hq.2).symm,
      fun p hp q hq => (hi p (s2 hp.1) hp.2).trans (hi q (s2 hq.1) hq.2).symm⟩
  · simp only [List.mem_cons, List.not_mem_nil, or_false, forall_eq_or_imp, forall_eq]
    constructor
    · intro p hp hp'
      exact ⟨Or.inr (hi p (s1 hp) hp'), by rw [hi p (s1 hp) hp']; exact hxb⟩
    · intro p hp hp'
      exact ⟨Or.inl (hi p (s2 hp) hp'), by rw [hi p (s2 hp) hp']; exact hxb⟩

theorem uniteOne_spec (a b : Point) (hab : a < b) (s : Segment) (hs : s.start ≠ s.end)
    (hne : ¬ (a = (toSortedPair s.start s.end).1 ∧ b = (toSortedPair s.start s.end).2)) :
    UniteOne a b s (uniteOne a b (toSortedPair s.start s.end).1 (toSortedPair s.start s.end).2 s) := by
  obtain ⟨hcd, es⟩ := sorted_spec s hs
  have hends : ∀ z, z = (toSortedPair s.start s.end).1 ∨ z = (toSortedPair s.start s.end).2 →
      z = s.start ∨ z = s.end := by
    rcases toSortedPair_cases s.start s.end hs with ⟨_, e⟩ | ⟨_, e⟩ <;> rw [e] <;> simp only <;> tauto
  generalize toSortedPair s.start s.end = f at *
  obtain ⟨c, d⟩ := f
  simp only at *
  have hc_mem := start_mem_seg c d
  have hd_mem := end_mem_seg c d
  have ha0 := cr_self1 a b
  have hb0 := cr_self2 a b
  unfold uniteOne
  simp only [Point.ltB_iff]
  have empt : seg a b ∩ seg c d = ∅ → UniteOne a b s ([s], []) := by
    intro h
    refine uniteOne_id hs (by simp) ⟨a, ?_, ?_⟩
    · intro p hp hp'
      exact absurd (show p ∈ seg a b ∩ seg c d from ⟨hp', by rw [es]; exact hp⟩) (by rw [h]; simp)
    · intro hp hp'
      exact absurd (show a ∈ seg a b ∩ seg c d from ⟨hp', by rw [es]; exact hp⟩) (by rw [h]; simp)
  by_cases ho : orient b a c = orient b a d
  · rw [if_pos ho]
    by_cases hcol : orient b a c = .collinear
    · rw [if_pos hcol]
      have hc : cr a b c = 0 := by
        rw [orient_collinear, cr_swap12] at hcol; linarith
      have hd : cr a b d = 0 := by
        rw [ho, orient_collinear, cr_swap12] at hcol; linarith
      have left_ : c < a → a ≤ d → d ≤ b → UniteOne a b s ([⟨c, a⟩], []) := by
        intro h1 h2 h3
        refine uniteOne_line hab hcd es hc hd _ ?_ ?_ (by simp)
        · simp only [List.mem_singleton, forall_eq]
          exact ⟨hc, ha0, h1, le_refl _, h2, Or.inl trivial⟩
        · intro p g1 g2 g3
          exact ⟨_, List.mem_singleton.mpr rfl, g1, not_lt.mp fun h => g3 ⟨h.le, g2.trans h3⟩⟩
      have right_ : b < d → a ≤ c → c ≤ b → UniteOne a b s ([⟨b, d⟩], []) := by
        intro h1 h2 h3
        refine uniteOne_line hab hcd es hc hd _ ?_ ?_ (by simp)
        · simp only [List.mem_singleton, forall_eq]
          exact ⟨hb0, hd, h1, h3, le_refl _, Or.inr trivial⟩
        · intro p g1 g2 g3
          exact ⟨_, List.mem_singleton.mpr rfl, not_lt.mp fun h => g3 ⟨h2.trans g1, h.le⟩, g2⟩
      have none_ : a ≤ c → d ≤ b → UniteOne a b s ([], []) := by
        intro h1 h2
        refine uniteOne_line hab hcd es hc hd _ (by simp) ?_ (by simp)
        intro p g1 g2 g3
        exact absurd ⟨h1.trans g1, g2.trans h2⟩ g3
      by_cases q1 : a = c
      · rw [if_pos q1]
        by_cases q2 : b < d
        · rw [if_pos q2]; exact right_ q2 q1.le (q1 ▸ hab.le)
        · rw [if_neg q2]; exact none_ q1.le (not_lt.mp q2)
      rw [if_neg q1]
      by_cases q2 : b = d
      · rw [if_pos q2]
        by_cases q3 : c < a
        · rw [if_pos q3]; exact left_ q3 (q2 ▸ hab.le) q2.ge
        · rw [if_neg q3]; exact none_ (not_lt.mp q3) q2.ge
      rw [if_neg q2]
      by_cases q3 : a < c ∧ c < b
      · rw [if_pos q3]
        by_cases q4 : b < d
        · rw [if_pos q4]; exact right_ q4 q3.1.le q3.2.le
        · rw [if_neg q4]; exact none_ q3.1.le (not_lt.mp q4)
      rw [if_neg q3]
      by_cases q4 : c < a ∧ a < d
      · rw [if_pos q4]
        by_cases q5 : b < d
        · rw [if_pos q5]
          refine uniteOne_line hab hcd es hc hd _ ?_ ?_ ?_
          · simp only [List.mem_cons, List.not_mem_nil, or_false, forall_eq_or_imp, forall_eq]
            exact ⟨⟨hc, ha0, q4.1, le_refl _, q4.2.le, Or.inl trivial⟩,
              ⟨hb0, hd, q5, q4.1.le.trans hab.le, le_refl _, Or.inr trivial⟩⟩
          · intro p g1 g2 g3
            rcases le_total p a with g | g
            · exact ⟨⟨c, a⟩, by simp, g1, g⟩
            · exact ⟨⟨b, d⟩, by simp, not_lt.mp fun h => g3 ⟨g, h.le⟩, g2⟩
          · simp only [List.pairwise_cons, List.mem_singleton, forall_eq, List.not_mem_nil, false_implies,
              implies_true, List.Pairwise.nil, and_true]
            exact noded_line hab hc ha0 hb0 hd q4.1 q5 hab.le
        · rw [if_neg q5]; exact left_ q4.1 q4.2.le (not_lt.mp q5)
      rw [if_neg q4]
      -- touching at one end or disjoint
      have hcase : d ≤ a ∨ b ≤ c := by
        rcases lt_or_gt_of_ne q1 with g | g
        · right; exact not_lt.mp fun h => q3 ⟨g, h⟩
        · left; exact not_lt.mp fun h => q4 ⟨g, h⟩
      rcases hcase with h | h
      · refine uniteOne_id hs (by simp) ⟨a, ?_, ?_⟩
        · intro p hp hp'
          rw [← es] at hp
          have m := (mem_inter_collinear hab hcd hc hd).mp ⟨hp', hp⟩
          exact le_antisymm (m.2.2.2.2.trans h) m.2.1
        · intro hp _
          rw [← es] at hp
          have m := (mem_seg_iff_of_le hcd.le).mp hp
          exact ⟨hends _ (Or.inr (le_antisymm m.2.2 h)), Or.inl rfl⟩
      · refine uniteOne_id hs (by simp) ⟨b, ?_, ?_⟩
        · intro p hp hp'
          rw [← es] at hp
          have m := (mem_inter_collinear hab hcd hc hd).mp ⟨hp', hp⟩
          exact le_antisymm m.2.2.1 (h.trans m.2.2.2.1)
        · intro hp _
          rw [← es] at hp
          have m := (mem_seg_iff_of_le hcd.le).mp hp
          exact ⟨hends _ (Or.inl (le_antisymm h m.2.1)), Or.inr (Or.inl rfl)⟩
    · rw [if_neg hcol]
      apply empt
      rw [orient_eq_iff] at ho
      rcases ho with ho | ho
      · exact absurd (orient_collinear.mpr ho.1) hcol
      · rw [swap_mul a b] at ho; exact inter_empty_of_same_side ho
  rw [if_neg ho]
  have hn : cr a b c ≠ 0 ∨ cr a b d ≠ 0 := by
    by_contra hh
    push Not at hh
    apply ho
    rw [orient_eq_iff, cr_swap12 a b c, cr_swap12 a b d, hh.1, hh.2]; simp
  have uniq : ∀ x, x ∈ seg a b → x ∈ seg c d → ∀ p, p ∈ seg c d → p ∈ seg a b → p = x :=
    fun x hx hx' p hp hp' => inter_atMostOne hab.ne hcd.ne hn p ⟨hp', hp⟩ x ⟨hx, hx'⟩
  -- an endpoint `x` of the component lies on the line of the segment
  have tjunction : ∀ x, (x = c ∨ x = d) → cr a b x = 0 →
      UniteOne a b s ([s], if a < x ∧ x < b then [x] else []) := by
    intro x hx hx0
    have hxcd : x ∈ seg c d := by rcases hx with rfl | rfl <;> assumption
    by_cases hin : x ∈ seg a b
    · have m := (mem_seg_iff_of_le hab.le).mp hin
      refine uniteOne_id hs ?_ ⟨x, ?_, ?_⟩
      · intro z hz
        split at hz
        · next h =>
          rw [List.mem_singleton] at hz; subst hz
          exact (mem_openSeg_iff_of_lt hab).mpr ⟨hx0, h⟩
        · simp at hz
      · intro p hp hp'
        rw [← es] at hp
        exact uniq x hin hxcd p hp hp'
      · intro _ _
        refine ⟨hends x hx, ?_⟩
        rcases m.2.1.eq_or_lt with h | h
        · exact Or.inl h.symm
        · rcases m.2.2.eq_or_lt with h' | h'
          · exact Or.inr (Or.inl h')
          · rw [if_pos ⟨h, h'⟩]; simp
    · have hni : ¬ (a < x ∧ x < b) := fun h => hin ((mem_seg_iff_of_le hab.le).mpr ⟨hx0, h.1.le, h.2.le⟩)
      rw [if_neg hni]
      apply empt
      exact inter_empty_of_unique (p := x) hab.ne hcd.ne hn hx0 (mem_seg_iff.mp hxcd).1 (fun h => hin h.1)
  by_cases hc : orient b a c = .collinear
  · rw [if_pos hc]
    apply tjunction c (Or.inl rfl)
    rw [orient_collinear, cr_swap12] at hc; linarith
  rw [if_neg hc]
  by_cases hd : orient b a d = .collinear
  · rw [if_pos hd]
    apply tjunction d (Or.inr rfl)
    rw [orient_collinear, cr_swap12] at hd; linarith
  rw [if_neg hd]
  have hopp := opposite_of_orient hc hd ho
  rw [swap_mul a b] at hopp
  -- an endpoint `x` of the segment lies on the line of the component
  have tjunction' : ∀ x, (x = a ∨ x = b) → cr c d x = 0 →
      UniteOne a b s (if c < x ∧ x < d then ([⟨c, x⟩, ⟨x, d⟩], []) else ([s], [])) := by
    intro x hx hx0
    have hxab : x ∈ seg a b := by
      rcases hx with rfl | rfl
      · exact start_mem_seg _ _
      · exact end_mem_seg _ _
    by_cases hin : c < x ∧ x < d
    · rw [if_pos hin]
      have hxo := (mem_openSeg_iff_of_lt hcd).mpr ⟨hx0, hin⟩
      exact uniteOne_split es hxo hcd (uniq x hxab (openSeg_subset_seg _ _ hxo)) (by simp)
        (by rcases hx with h | h <;> simp [h])
    · rw [if_neg hin]
      apply empt
      refine inter_empty_of_unique (p := x) hab.ne hcd.ne hn (mem_seg_iff.mp hxab).1 hx0 (fun h => ?_)
      have m := (mem_seg_iff_of_le hcd.le).mp h.2
      rw [orient_collinear] at hc hd
      have hxz : cr b a x = 0 := by
        rcases hx with rfl | rfl
        · exact cr_self2 _ _
        · exact cr_self1 _ _
      rcases m.2.1.eq_or_lt with h1 | h1
      · exact hc (by rw [h1]; exact hxz)
      · rcases m.2.2.eq_or_lt with h2 | h2
        · exact hd (by rw [← h2]; exact hxz)
        · exact hin ⟨h1, h2⟩
  by_cases h1 : orient c d a = .collinear
  · rw [if_pos h1]
    exact tjunction' a (Or.inl rfl) (orient_collinear.mp h1)
  rw [if_neg h1]
  by_cases h2 : orient c d b = .collinear
  · rw [if_pos h2]
    exact tjunction' b (Or.inr rfl) (orient_collinear.mp h2)
  rw [if_neg h2]
  by_cases h3 : orient c d a ≠ orient c d b
  · rw [if_pos h3]
    have hopp' := opposite_of_orient h1 h2 h3
    obtain ⟨e, k1, k2⟩ := toSegmentsIntersection_spec hopp' hopp
    have hm : toSegmentsIntersection c d a b ∈ seg c d ∩ seg a b := by rw [e]; rfl
    exact uniteOne_split es k1 hcd (uniq _ hm.2 hm.1) (by simpa using k2) (by simp)
  · rw [if_neg h3]
    push Not at h3
    apply empt
    rw [orient_eq_iff] at h3
    rcases h3 with h3 | h3
    · exact absurd (orient_collinear.mpr h3.1) h1
    · rw [Set.inter_comm]; exact inter_empty_of_same_side h3

end Rene

namespace Rene
open Spec

theorem noded_of_disjoint {s t : Segment} (h : segPts s ∩ segPts t = ∅) : Noded s t := by
  refine ⟨fun p hp => absurd hp (by rw [h]; simp), fun p h1 h2 => ?_⟩
  exact absurd (show p ∈ segPts s ∩ segPts t from ⟨h1, h2⟩) (by rw [h]; simp)

/-- an endpoint of a segment is an endpoint of every piece containing it -/
theorem endpoint_of_piece {s r : Segment} (hr : r.start ≠ r.end) (hsub : segPts r ⊆ segPts s)
    {p : Point} (hp : p ∈ segPts r) (he : p = s.start ∨ p = s.end) : p = r.start ∨ p = r.end := by
  by_contra hn
  push Not at hn
  have hs : s.start ≠ s.end := by
    intro h
    apply hr
    have h1 := hsub (start_mem_seg r.start r.end)
    have h2 := hsub (end_mem_seg r.start r.end)
    unfold segPts at h1 h2
    rw [h] at h1 h2
    obtain ⟨t, _, _, e⟩ := h1
    obtain ⟨t', _, _, e'⟩ := h2
    rw [lerp_self] at e e'
    rw [e, e']
  obtain ⟨t, t0, t1, e⟩ := (mem_openSeg_iff hr).mpr ⟨hp, hn.1, hn.2⟩
  obtain ⟨u, u0, u1, eu⟩ := hsub (start_mem_seg r.start r.end)
  obtain ⟨v, v0, v1, ev⟩ := hsub (end_mem_seg r.start r.end)
  have e' : p = lerp s.start s.end (u + t * (v - u)) := by
    rw [e, eu, ev]; apply Point.ext' <;> simp only [lerp] <;> ring
  have huv : u ≠ v := by rintro rfl; exact hr (eu.trans ev.symm)
  rcases he with he | he
  · have := lerp_inj hs (e'.symm.trans (he.trans (lerp_zero _ _).symm))
    rcases lt_or_gt_of_ne huv with h | h <;> nlinarith
  · have := lerp_inj hs (e'.symm.trans (he.trans (lerp_one _ _).symm))
    rcases lt_or_gt_of_ne huv with h | h <;> nlinarith

/-- pieces of noded segments are noded -/
theorem noded_mono {s t r r' : Segment} (h : Noded s t) (h1 : segPts r ⊆ segPts s)
    (h2 : segPts r' ⊆ segPts t) (hr : r.start ≠ r.end) (hr' : r'.start ≠ r'.end) : Noded r r' := by
  refine ⟨Apart.mono h.1 h1 h2, fun p hp hp' => ?_⟩
  obtain ⟨e1, e2⟩ := h.2 p (h1 hp) (h2 hp')
  exact ⟨endpoint_of_piece hr h1 hp e1, endpoint_of_piece hr' h2 hp' e2⟩

/-- What the loop returns: the pieces of the components and the break points. -/
structure UniteRes (f : Segment) (l : List Segment) (r : List Segment × List Point) : Prop where
  sub : segsPts r.1 ⊆ segsPts l
  sup : segsPts l ⊆ segsPts r.1 ∪ segPts f
  bps : ∀ z ∈ r.2, z ∈ openSeg (toSortedPair f.start f.end).1 (toSortedPair f.start f.end).2
  nondeg : ∀ s ∈ r.1, s.start ≠ s.end
  origin : ∀ s ∈ r.1, ∃ s' ∈ l, segPts s ⊆ segPts s'

theorem uniteLoop_res (f : Segment) (hf : f.start ≠ f.end) (l : List Segment)
    (hl : ∀ s ∈ l, s.start ≠ s.end) :
    UniteRes f l (uniteLoop f.boundingBox (toSortedPair f.start f.end).1 (toSortedPair f.start f.end).2 l) := by
  obtain ⟨hab, ef⟩ := sorted_spec f hf
  induction l with
  | nil => exact ⟨by simp [uniteLoop], by simp [segsPts_nil], by simp [uniteLoop], by simp [uniteLoop],
      by simp [uniteLoop]⟩
  | cons s l ih =>
    have hs : s.start ≠ s.end := hl s List.mem_cons_self
    obtain ⟨i1, i2, i3, i4, i5⟩ := ih (fun r hr => hl r (List.mem_cons_of_mem _ hr))
    unfold uniteLoop
    generalize uniteLoop f.boundingBox (toSortedPair f.start f.end).1 (toSortedPair f.start f.end).2 l = R at *
    by_cases hb : s.boundingBox.disjointWith f.boundingBox = true
    · rw [if_pos hb]
      refine ⟨?_, ?_, i3, ?_, ?_⟩
      · simp only [segsPts_cons]; exact Set.union_subset_union (fun _ h => h) i1
      · simp only [segsPts_cons]
        rintro p (hp | hp)
        · exact Or.inl (Or.inl hp)
        · rcases i2 hp with h | h
          · exact Or.inl (Or.inr h)
          · exact Or.inr h
      · intro r hr
        rcases List.mem_cons.mp hr with rfl | hr
        · exact hs
        · exact i4 r hr
      · intro r hr
        rcases List.mem_cons.mp hr with rfl | hr
        · exact ⟨r, List.mem_cons_self, fun _ h => h⟩
        · obtain ⟨s', h1, h2⟩ := i5 r hr
          exact ⟨s', List.mem_cons_of_mem _ h1, h2⟩
    · rw [if_neg hb]
      simp only
      by_cases he : (toSortedPair f.start f.end).1 = (toSortedPair s.start s.end).1 ∧
          (toSortedPair f.start f.end).2 = (toSortedPair s.start s.end).2
      · rw [if_pos he]
        have est : segPts f = segPts s := by
          rw [← ef, ← (sorted_spec s hs).2, he.1, he.2]
        refine ⟨?_, ?_, by simp, fun r hr => hl r (List.mem_cons_of_mem _ hr),
          fun r hr => ⟨r, List.mem_cons_of_mem _ hr, fun _ h => h⟩⟩
        · rw [segsPts_cons]; exact Set.subset_union_right
        · rw [segsPts_cons, est, Set.union_comm]
      · rw [if_neg he]
        have o := uniteOne_spec _ _ hab s hs he
        generalize uniteOne (toSortedPair f.start f.end).1 (toSortedPair f.start f.end).2
          (toSortedPair s.start s.end).1 (toSortedPair s.start s.end).2 s = O at *
        refine ⟨?_, ?_, ?_, ?_, ?_⟩
        · rw [segsPts_append, segsPts_cons]; exact Set.union_subset_union o.sub i1
        · rw [segsPts_append, segsPts_cons]
          rintro p (hp | hp)
          · rcases o.sup hp with h | h
            · exact Or.inl (Or.inl h)
            · rw [ef] at h; exact Or.inr h
          · rcases i2 hp with h | h
            · exact Or.inl (Or.inr h)
            · exact Or.inr h
        · intro z hz
          rcases List.mem_append.mp hz with hz | hz
          · exact o.bps z hz
          · exact i3 z hz
        · intro r hr
          rcases List.mem_append.mp hr with hr | hr
          · exact o.nondeg r hr
          · exact i4 r hr
        · intro r hr
          rcases List.mem_append.mp hr with hr | hr
          · exact ⟨s, List.mem_cons_self, (segPts_subset_segsPts hr).trans o.sub⟩
          · obtain ⟨s', h1, h2⟩ := i5 r hr
            exact ⟨s', List.mem_cons_of_mem _ h1, h2⟩

/-- The noding part: needs noded input. -/
structure UniteNode (f : Segment) (r : List Segment × List Point) : Prop where
  pair : r.1.Pairwise Noded
  apart : ∀ s ∈ r.1, Apart s f
  ends : ∀ s ∈ r.1, ∀ p, p ∈ segPts s → p ∈ segPts f →
    (p = s.start ∨ p = s.end) ∧ (p = f.start ∨ p = f.end ∨ p ∈ r.2)

theorem uniteLoop_node (f : Segment) (hf : f.start ≠ f.end) (l : List Segment) (hl : FullyNoded l) :
    UniteNode f (uniteLoop f.boundingBox (toSortedPair f.start f.end).1 (toSortedPair f.start f.end).2 l) := by
  obtain ⟨hab, ef⟩ := sorted_spec f hf
  have hends : ∀ z, z = (toSortedPair f.start f.end).1 ∨ z = (toSortedPair f.start f.end).2 →
      z = f.start ∨ z = f.end := by
    rcases toSortedPair_cases f.start f.end hf with ⟨_, e⟩ | ⟨_, e⟩ <;> rw [e] <;> simp only <;> tauto
  induction l with
  | nil => exact ⟨by simp [uniteLoop], by simp [uniteLoop], by simp [uniteLoop]⟩
  | cons s l ih =>
    have hs : s.start ≠ s.end := hl.1 s List.mem_cons_self
    have hl' : FullyNoded l := ⟨fun r hr => hl.1 r (List.mem_cons_of_mem _ hr), hl.2.of_cons⟩
    have hsl : ∀ r ∈ l, Noded s r := (List.pairwise_cons.mp hl.2).1
    obtain ⟨i1, i2, i3⟩ := ih hl'
    have res := uniteLoop_res f hf l hl'.1
    unfold uniteLoop
    generalize uniteLoop f.boundingBox (toSortedPair f.start f.end).1 (toSortedPair f.start f.end).2 l = R at *
    by_cases hb : s.boundingBox.disjointWith f.boundingBox = true
    · rw [if_pos hb]
      have hd := disjoint_of_disjointWith hb
      refine ⟨?_, ?_, ?_⟩
      · rw [List.pairwise_cons]
        refine ⟨fun r hr => ?_, i1⟩
        obtain ⟨s', h1, h2⟩ := res.origin r hr
        exact noded_mono (hsl s' h1) (fun _ h => h) h2 hs (res.nondeg r hr)
      · intro r hr
        rcases List.mem_cons.mp hr with rfl | hr
        · exact (noded_of_disjoint hd).1
        · exact i2 r hr
      · intro r hr p hp hp'
        rcases List.mem_cons.mp hr with rfl | hr
        · exact absurd (show p ∈ segPts r ∩ segPts f from ⟨hp, hp'⟩) (by rw [hd]; simp)
        · exact i3 r hr p hp hp'
    · rw [if_neg hb]
      simp only
      by_cases he : (toSortedPair f.start f.end).1 = (toSortedPair s.start s.end).1 ∧
          (toSortedPair f.start f.end).2 = (toSortedPair s.start s.end).2
      · rw [if_pos he]
        have est : segPts f = segPts s := by
          rw [← ef, ← (sorted_spec s hs).2, he.1, he.2]
        have hfl : ∀ r ∈ l, Noded f r := by
          intro r hr
          exact noded_mono (hsl r hr) est.subset (fun _ h => h) hf (hl'.1 r hr)
        refine ⟨hl'.2, fun r hr => (hfl r hr).1.symm, fun r hr p hp hp' => ?_⟩
        obtain ⟨e1, e2⟩ := (hfl r hr).2 p hp' hp
        exact ⟨e2, by rcases e1 with h | h <;> simp [h]⟩
      · rw [if_neg he]
        have o := uniteOne_spec _ _ hab s hs he
        generalize uniteOne (toSortedPair f.start f.end).1 (toSortedPair f.start f.end).2
          (toSortedPair s.start s.end).1 (toSortedPair s.start s.end).2 s = O at *
        refine ⟨?_, ?_, ?_⟩
        · rw [List.pairwise_append]
          refine ⟨o.pair, i1, fun r hr r' hr' => ?_⟩
          obtain ⟨s', h1, h2⟩ := res.origin r' hr'
          exact noded_mono (hsl s' h1) ((segPts_subset_segsPts hr).trans o.sub) h2 (o.nondeg r hr)
            (res.nondeg r' hr')
        · intro r hr
          rcases List.mem_append.mp hr with hr | hr
          · have := o.apart r hr; rw [ef] at this; exact this
          · exact i2 r hr
        · intro r hr p hp hp'
          rcases List.mem_append.mp hr with hr | hr
          · rw [← ef] at hp'
            obtain ⟨e1, e2⟩ := o.ends r hr p hp hp'
            refine ⟨e1, ?_⟩
            rw [← or_assoc] at e2
            rcases e2 with e | e
            · rcases hends p e with h | h <;> simp [h]
            · simp [e]
          · obtain ⟨e1, e2⟩ := i3 r hr p hp hp'
            refine ⟨e1, ?_⟩
            rcases e2 with h | h | h <;> simp [h]

/-- The overlap part: needs components which do not overlap. -/
theorem uniteLoop_apart (f : Segment) (hf : f.start ≠ f.end) (l : List Segment) (hl : NoOverlap l) :
    (uniteLoop f.boundingBox (toSortedPair f.start f.end).1 (toSortedPair f.start f.end).2 l).1.Pairwise Apart ∧
    ∀ s ∈ (uniteLoop f.boundingBox (toSortedPair f.start f.end).1 (toSortedPair f.start f.end).2 l).1,
      Apart s f := by
  obtain ⟨hab, ef⟩ := sorted_spec f hf
  induction l with
  | nil => exact ⟨by simp [uniteLoop], by simp [uniteLoop]⟩
  | cons s l ih =>
    have hs : s.start ≠ s.end := hl.1 s List.mem_cons_self
    have hl' : NoOverlap l := ⟨fun r hr => hl.1 r (List.mem_cons_of_mem _ hr), hl.2.of_cons⟩
    have hsl : ∀ r ∈ l, Apart s r := (List.pairwise_cons.mp hl.2).1
    obtain ⟨i1, i2⟩ := ih hl'
    have res := uniteLoop_res f hf l hl'.1
    unfold uniteLoop
    generalize uniteLoop f.boundingBox (toSortedPair f.start f.end).1 (toSortedPair f.start f.end).2 l = R at *
    by_cases hb : s.boundingBox.disjointWith f.boundingBox = true
    · rw [if_pos hb]
      have hd := disjoint_of_disjointWith hb
      refine ⟨?_, ?_⟩
      · rw [List.pairwise_cons]
        refine ⟨fun r hr => ?_, i1⟩
        obtain ⟨s', h1, h2⟩ := res.origin r hr
        exact Apart.mono (hsl s' h1) (fun _ h => h) h2
      · intro r hr
        rcases List.mem_cons.mp hr with rfl | hr
        · exact (noded_of_disjoint hd).1
        · exact i2 r hr
    · rw [if_neg hb]
      simp only
      by_cases he : (toSortedPair f.start f.end).1 = (toSortedPair s.start s.end).1 ∧
          (toSortedPair f.start f.end).2 = (toSortedPair s.start s.end).2
      · rw [if_pos he]
        have est : segPts f = segPts s := by
          rw [← ef, ← (sorted_spec s hs).2, he.1, he.2]
        refine ⟨hl'.2, fun r hr => ?_⟩
        have h := hsl r hr
        unfold Apart at *
        rwa [est, Set.inter_comm]
      · rw [if_neg he]
        have o := uniteOne_spec _ _ hab s hs he
        generalize uniteOne (toSortedPair f.start f.end).1 (toSortedPair f.start f.end).2
          (toSortedPair s.start s.end).1 (toSortedPair s.start s.end).2 s = O at *
        refine ⟨?_, ?_⟩
        · rw [List.pairwise_append]
          refine ⟨o.pair.imp fun h => h.1, i1, fun r hr r' hr' => ?_⟩
          obtain ⟨s', h1, h2⟩ := res.origin r' hr'
          exact Apart.mono (hsl s' h1) ((segPts_subset_segsPts hr).trans o.sub) h2
        · intro r hr
          rcases List.mem_append.mp hr with hr | hr
          · have := o.apart r hr; rw [ef] at this; exact this
          · exact i2 r hr

/-- All components together: union, and noding when the input was noded. -/
theorem unite_spec (f : Segment) (hf : f.start ≠ f.end) (l : List Segment) (hl : ∀ s ∈ l, s.start ≠ s.end) :
    let p := toSortedPair f.start f.end
    let r := uniteLoop f.boundingBox p.1 p.2 l
    segsPts (r.1 ++ breakSegment f p.1 p.2 r.2) = segPts f ∪ segsPts l ∧
      (∀ s ∈ r.1 ++ breakSegment f p.1 p.2 r.2, s.start ≠ s.end) ∧
      r.1 ++ breakSegment f p.1 p.2 r.2 ≠ [] ∧
      (FullyNoded l → FullyNoded (r.1 ++ breakSegment f p.1 p.2 r.2)) ∧
      (NoOverlap l → NoOverlap (r.1 ++ breakSegment f p.1 p.2 r.2)) := by
  simp only
  have res := uniteLoop_res f hf l hl
  have node := fun h => uniteLoop_node f hf l h
  have apt := fun h => uniteLoop_apart f hf l h
  generalize uniteLoop f.boundingBox (toSortedPair f.start f.end).1 (toSortedPair f.start f.end).2 l = R at *
  obtain ⟨b1, b2, b3, b4⟩ := break_spec f hf R.2 res.bps
  have nd : ∀ s ∈ R.1 ++ breakSegment f (toSortedPair f.start f.end).1 (toSortedPair f.start f.end).2 R.2,
      s.start ≠ s.end := by
    intro s hs
    rcases List.mem_append.mp hs with hs | hs
    · exact res.nondeg s hs
    · exact b2.1 s hs
  refine ⟨?_, nd, ?_, ?_, ?_⟩
  · rw [segsPts_append, b1]
    apply Set.Subset.antisymm
    · rintro p (h | h)
      · exact Or.inr (res.sub h)
      · exact Or.inl h
    · rintro p (h | h)
      · exact Or.inr h
      · exact res.sup h
  · intro h
    exact b4 (List.append_eq_nil_iff.mp h).2
  · intro hn
    obtain ⟨n1, n2, n3⟩ := node hn
    refine ⟨nd, ?_⟩
    rw [List.pairwise_append]
    refine ⟨n1, b2.2, fun r hr q hq => ?_⟩
    obtain ⟨q1, q2⟩ := b3 q hq
    refine ⟨Apart.mono (n2 r hr) (fun _ h => h) q1, fun p hp hp' => ?_⟩
    obtain ⟨e1, e2⟩ := n3 r hr p hp (q1 hp')
    exact ⟨e1, q2 p e2 hp'⟩
  · intro hn
    obtain ⟨n1, n2⟩ := apt hn
    refine ⟨nd, ?_⟩
    rw [List.pairwise_append]
    exact ⟨n1, b2.2.imp fun h => h.1, fun r hr q hq => Apart.mono (n2 r hr) (fun _ h => h) (b3 q hq).1⟩

/-- A common point of boxes without a common continuum is an endpoint of each segment inside. -/
theorem noded_of_noCommonContinuum {s t : Segment} {A B : Box} (hs : s.start ≠ s.end)
    (ht : t.start ≠ t.end) (hA : segPts s ⊆ boxPts A) (hB : segPts t ⊆ boxPts B)
    (h : doBoxesHaveNoCommonContinuum A B = true) : Noded s t := by
  refine ⟨atMostOne_mono (Set.inter_subset_inter hA hB) (atMostOne_of_noCommonContinuum h), ?_⟩
  intro p hp hp'
  have hpA := mem_boxPts.mp (hA hp)
  have hpB := mem_boxPts.mp (hB hp')
  rw [noCommonContinuum_iff] at h
  rcases h with h | ⟨_, hy, hx⟩
  · exfalso; rcases h with h | h | h | h <;> linarith
  -- `p` is extreme in both coordinates for both boxes
  have key : ∀ (s : Segment) (B : Box), s.start ≠ s.end → segPts s ⊆ boxPts B → p ∈ segPts s →
      (p.x = B.minX ∨ p.x = B.maxX) → (p.y = B.minY ∨ p.y = B.maxY) → p = s.start ∨ p = s.end := by
    intro s B hs hB hp hx hy
    by_contra hn
    push Not at hn
    obtain ⟨t, t0, t1, e⟩ := (mem_openSeg_iff hs).mpr ⟨hp, hn.1, hn.2⟩
    have h1 := mem_boxPts.mp (hB (start_mem_seg s.start s.end))
    have h2 := mem_boxPts.mp (hB (end_mem_seg s.start s.end))
    have ex : p.x = s.start.x + t * (s.end.x - s.start.x) := by rw [e]; rfl
    have ey : p.y = s.start.y + t * (s.end.y - s.start.y) := by rw [e]; rfl
    have hxx : s.start.x = s.end.x := by
      rcases hx with h | h <;> rw [h] at ex <;> nlinarith
    have hyy : s.start.y = s.end.y := by
      rcases hy with h | h <;> rw [h] at ey <;> nlinarith
    exact hs (Point.ext' hxx hyy)
  constructor
  · refine key s A hs hA hp ?_ ?_
    · rcases hx with h | h
      · left; linarith
      · right; linarith
    · rcases hy with h | h
      · left; linarith
      · right; linarith
  · refine key t B ht hB hp' ?_ ?_
    · rcases hx with h | h
      · right; linarith
      · left; linarith
    · rcases hy with h | h
      · right; linarith
      · left; linarith

end Rene
