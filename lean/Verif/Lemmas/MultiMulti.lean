import Verif.Lemmas.Sweep.Result
import Verif.Lemmas.MultiOps

/-! Combining the sweep with the bounding box filters. -/

namespace Rene
open Spec Sweep

theorem joined_symm {s t : Segment} (h : Joined s t) : Joined t s :=
  ⟨by have := h.1; unfold Apart at *; rwa [Set.inter_comm], by rw [Set.inter_comm]; exact h.2⟩

theorem apart_symm {s t : Segment} (h : Apart s t) : Apart t s := by
  unfold Apart at *; rwa [Set.inter_comm]

theorem noded_joined {s t : Segment} (h : Noded s t) (hs : s.start ≠ s.end) : Joined s t := by
  refine ⟨h.1, Set.eq_empty_of_forall_notMem ?_⟩
  rintro p ⟨p1, p2⟩
  have := (h.2 p (openSeg_subset_seg _ _ p1) (openSeg_subset_seg _ _ p2)).1
  rcases this with rfl | rfl
  · exact not_mem_openSeg_left hs p1
  · exact not_mem_openSeg_right hs p1

theorem openSeg_mono {a b c d : Point} (hcd : c ≠ d) (h : seg c d ⊆ seg a b) : openSeg c d ⊆ openSeg a b := by
  obtain ⟨u, u0, u1, hu⟩ := h (start_mem_seg c d)
  obtain ⟨v, v0, v1, hv⟩ := h (end_mem_seg c d)
  rintro p ⟨t, t0, t1, rfl⟩
  subst hu hv
  have huv : u ≠ v := by rintro rfl; exact hcd rfl
  refine ⟨u + t * (v - u), ?_, ?_, ?_⟩
  · rcases lt_or_gt_of_ne huv with k | k <;> nlinarith
  · rcases lt_or_gt_of_ne huv with k | k <;> nlinarith
  · apply Point.ext' <;> simp only [lerp] <;> ring

theorem joined_mono {s t s' t' : Segment} (h : Joined s t) (hs : s'.start ≠ s'.end) (ht : t'.start ≠ t'.end)
    (h1 : segPts s' ⊆ segPts s) (h2 : segPts t' ⊆ segPts t) : Joined s' t' := by
  refine ⟨Apart.mono h.1 h1 h2, Set.eq_empty_of_subset_empty ?_⟩
  rw [← h.2]
  exact Set.inter_subset_inter (openSeg_mono hs h1) (openSeg_mono ht h2)

theorem openSeg_extreme {s : Segment} (hs : s.start ≠ s.end) {p : Point} (hp : p ∈ openSeg s.start s.end)
    (hx : p.x = s.boundingBox.minX ∨ p.x = s.boundingBox.maxX)
    (hy : p.y = s.boundingBox.minY ∨ p.y = s.boundingBox.maxY) : False := by
  obtain ⟨t, t0, t1, rfl⟩ := hp
  simp only [Segment.boundingBox, lerp] at hx hy
  have key : ∀ u v : ℚ, (u + t * (v - u) = min v u ∨ u + t * (v - u) = max v u) → u = v := by
    intro u v h
    by_contra hne
    rcases lt_or_gt_of_ne hne with k | k
    · rw [min_eq_right k.le, max_eq_left k.le] at h
      rcases h with h | h <;> nlinarith
    · rw [min_eq_left k.le, max_eq_right k.le] at h
      rcases h with h | h <;> nlinarith
  exact hs (Point.ext' (key _ _ hx) (key _ _ hy))

/-- A segment whose box has no common continuum with a box is joined to everything in it. -/
theorem joined_of_box {s t : Segment} {b : Box} (hs : s.start ≠ s.end)
    (h : doBoxesHaveNoCommonContinuum s.boundingBox b = true) (ht : segPts t ⊆ boxPts b) : Joined s t := by
  refine ⟨atMostOne_mono (Set.inter_subset_inter (segPts_subset_boundingBox s) ht)
    (atMostOne_of_noCommonContinuum h), Set.eq_empty_of_forall_notMem ?_⟩
  rintro p ⟨p1, p2⟩
  have m1 := mem_boxPts.mp (segPts_subset_boundingBox s (openSeg_subset_seg _ _ p1))
  have m2 := mem_boxPts.mp (ht (openSeg_subset_seg _ _ p2))
  rw [noCommonContinuum_iff] at h
  rcases h with h | ⟨_, hy, hx⟩
  · rcases h with h | h | h | h <;> linarith
  · refine openSeg_extreme hs p1 ?_ ?_
    · rcases hx with k | k
      · left; linarith
      · right; linarith
    · rcases hy with k | k
      · left; linarith
      · right; linarith

/-- The two pairwise conditions on components we track. -/
structure Sep (P : Segment → Segment → Prop) : Prop where
  symm : ∀ {s t}, P s t → P t s
  mono : ∀ {s t s' t'}, P s t → s'.start ≠ s'.end → t'.start ≠ t'.end → segPts s' ⊆ segPts s →
    segPts t' ⊆ segPts t → P s' t'
  box : ∀ {s t b}, s.start ≠ s.end → doBoxesHaveNoCommonContinuum s.boundingBox b = true →
    segPts t ⊆ boxPts b → P s t
  noded : ∀ {s t}, s.start ≠ s.end → Noded s t → P s t

theorem sep_apart : Sep Apart :=
  ⟨apart_symm, fun h _ _ h1 h2 => Apart.mono h h1 h2, fun hs h ht => (joined_of_box hs h ht).1, fun _ h => h.1⟩

theorem sep_joined : Sep Joined :=
  ⟨joined_symm, joined_mono, joined_of_box, fun hs h => noded_joined h hs⟩

theorem noOverlap_filter {l : List Segment} (h : NoOverlap l) (p : Segment → Bool) : NoOverlap (l.filter p) :=
  ⟨fun s hs => h.1 s (List.mem_filter.mp hs).1, h.2.filter p⟩

theorem pairwise_parts {P : Segment → Segment → Prop} (hP : Sep P) {l : List Segment} (h : l.Pairwise P)
    (p : Segment → Bool) : ∀ s ∈ l.filter p, ∀ t ∈ l.filter (fun s => !p s), P s t := by
  intro s hs t ht
  rw [List.mem_filter] at hs ht
  have hne : s ≠ t := by rintro rfl; simp [hs.2] at ht
  haveI : Std.Symm P := ⟨fun _ _ => hP.symm⟩
  exact h.forall hs.1 ht.1 hne

theorem segsPts_parts (l : List Segment) (p : Segment → Bool) (q : Point) :
    q ∈ segsPts l ↔ q ∈ segsPts (l.filter p) ∨ q ∈ segsPts (l.filter fun s => !p s) := by
  simp only [segsPts, Set.mem_setOf_eq, List.mem_filter]
  constructor
  · rintro ⟨s, hs, hq⟩
    by_cases k : p s = true
    · exact Or.inl ⟨s, ⟨hs, k⟩, hq⟩
    · exact Or.inr ⟨s, ⟨hs, by simpa using k⟩, hq⟩
  · rintro (⟨s, hs, hq⟩ | ⟨s, hs, hq⟩) <;> exact ⟨s, hs.1, hq⟩

theorem segsPts_filter_sub (l : List Segment) (p : Segment → Bool) : segsPts (l.filter p) ⊆ segsPts l := by
  rintro q ⟨s, hs, hq⟩
  exact ⟨s, (List.mem_filter.mp hs).1, hq⟩

theorem segPts_sub_box {l : List Segment} {b : Box} (h : segsPts l ⊆ boxPts b) {s : Segment} (hs : s ∈ l) :
    segPts s ⊆ boxPts b := fun _ hq => h ⟨s, hs, hq⟩

/-- Segments without a common continuum with the box of a set share only finitely many points with it. -/
theorem exceptional_box {l : List Segment} {T : Set Point} (h : ∀ s ∈ l, AtMostOne (segPts s ∩ T)) :
    ∃ F : List Point, ∀ q ∉ F, q ∈ segsPts l → q ∉ T := by
  induction l with
  | nil => exact ⟨[], fun q _ hq => by simp [segsPts_nil] at hq⟩
  | cons s l ih =>
    obtain ⟨F, hF⟩ := ih fun t ht => h t (List.mem_cons_of_mem _ ht)
    by_cases hne : (segPts s ∩ T).Nonempty
    · obtain ⟨z, hz⟩ := hne
      refine ⟨z :: F, fun q hq hm hT => ?_⟩
      rw [List.mem_cons, not_or] at hq
      rw [segsPts_cons] at hm
      rcases hm with k | k
      · exact hq.1 (h s List.mem_cons_self q ⟨k, hT⟩ z hz)
      · exact hF q hq.2 k hT
    · refine ⟨F, fun q hq hm hT => ?_⟩
      rw [segsPts_cons] at hm
      rcases hm with k | k
      · exact hne ⟨q, k, hT⟩
      · exact hF q hq k hT

theorem exceptional_filter {l l' : List Segment} {b : Box} (h : segsPts l' ⊆ boxPts b) :
    ∃ F : List Point, ∀ q ∉ F, q ∈ segsPts (l.filter fun s => !doBoxesHaveCommonContinuum s.boundingBox b) →
      q ∉ segsPts l' := by
  apply exceptional_box
  intro s hs
  rw [List.mem_filter] at hs
  exact atMostOne_mono (Set.inter_subset_inter (segPts_subset_boundingBox s) h)
    (atMostOne_of_noCommonContinuum (noCommon_true (by simpa using hs.2)))

/-- Boxes without common continuum. -/
theorem atMostOne_boxes {l l' : List Segment} {a b : Box} (h1 : segsPts l ⊆ boxPts a) (h2 : segsPts l' ⊆ boxPts b)
    (h : doBoxesHaveNoCommonContinuum a b = true) : AtMostOne (segsPts l ∩ segsPts l') :=
  atMostOne_mono (Set.inter_subset_inter h1 h2) (atMostOne_of_noCommonContinuum h)

theorem exceptional_of_atMostOne {S T : Set Point} (h : AtMostOne (S ∩ T)) :
    ∃ F : List Point, ∀ q ∉ F, q ∈ S → q ∉ T := by
  by_cases hne : (S ∩ T).Nonempty
  · obtain ⟨z, hz⟩ := hne
    exact ⟨[z], fun q hq h1 h2 => hq (by rw [h q ⟨h1, h2⟩ z hz]; simp)⟩
  · exact ⟨[], fun q _ h1 h2 => hne ⟨q, h1, h2⟩⟩

/-- Boxes of the members inherit the absence of a common continuum. -/
theorem noCommon_mono {a b : Box} {s : Segment} (hs : segPts s ⊆ boxPts a)
    (h : doBoxesHaveNoCommonContinuum a b = true) : doBoxesHaveNoCommonContinuum s.boundingBox b = true := by
  obtain ⟨_, ⟨p1, q1, e1⟩, ⟨p2, q2, e2⟩, ⟨p3, q3, e3⟩, ⟨p4, q4, e4⟩⟩ := segment_tight s
  have m1 := mem_boxPts.mp (hs q1)
  have m2 := mem_boxPts.mp (hs q2)
  have m3 := mem_boxPts.mp (hs q3)
  have m4 := mem_boxPts.mp (hs q4)
  have n1 := mem_boxPts.mp (segPts_subset_boundingBox s q1)
  have n3 := mem_boxPts.mp (segPts_subset_boundingBox s q3)
  rw [e1] at m1 n1; rw [e2] at m2; rw [e3] at m3 n3; rw [e4] at m4
  obtain ⟨m1, m1', _⟩ := m1
  obtain ⟨m2, m2', _⟩ := m2
  obtain ⟨_, _, m3, m3'⟩ := m3
  obtain ⟨_, _, m4, m4'⟩ := m4
  obtain ⟨_, n1, _⟩ := n1
  obtain ⟨_, _, _, n3⟩ := n3
  rw [noCommonContinuum_iff] at *
  clear e1 e2 e3 e4 q1 q2 q3 q4 hs
  generalize s.boundingBox.minX = x0 at *
  generalize s.boundingBox.maxX = x1 at *
  generalize s.boundingBox.minY = y0 at *
  generalize s.boundingBox.maxY = y1 at *
  generalize a.minX = a0 at *
  generalize a.maxX = a1 at *
  generalize a.minY = a2 at *
  generalize a.maxY = a3 at *
  generalize b.minX = b0 at *
  generalize b.maxX = b1 at *
  generalize b.minY = b2 at *
  generalize b.maxY = b3 at *
  grind

theorem pairwise_append_boxes {P : Segment → Segment → Prop} (hP : Sep P) {l l' : List Segment} {a b : Box}
    (h1 : ∀ s ∈ l, s.start ≠ s.end) (a1 : segsPts l ⊆ boxPts a) (a2 : segsPts l' ⊆ boxPts b)
    (h : doBoxesHaveNoCommonContinuum a b = true) (p1 : l.Pairwise P) (p2 : l'.Pairwise P) :
    (l ++ l').Pairwise P := by
  rw [List.pairwise_append]
  exact ⟨p1, p2, fun s hs t ht => hP.box (h1 s hs) (noCommon_mono (segPts_sub_box a1 hs) h) (segPts_sub_box a2 ht)⟩

theorem pairwise_append_dropped {P : Segment → Segment → Prop} (hP : Sep P) {l l' : List Segment} {b : Box}
    (h1 : ∀ s ∈ l, s.start ≠ s.end) (a2 : segsPts l' ⊆ boxPts b)
    (h : ∀ s ∈ l, ¬ doBoxesHaveCommonContinuum s.boundingBox b = true) (p1 : l.Pairwise P) (p2 : l'.Pairwise P) :
    (l ++ l').Pairwise P := by
  rw [List.pairwise_append]
  exact ⟨p1, p2, fun s hs t ht => hP.box (h1 s hs) (noCommon_true (h s hs)) (segPts_sub_box a2 ht)⟩

/-! ### the stopping conditions -/

theorem mono_x (m : ℚ) : Mono (fun p : Point => decide (p.x > m)) := by
  intro p q hpq h
  rw [decide_eq_true_eq] at *
  rw [Point.le_iff] at hpq
  rcases hpq with k | k
  · exact lt_trans h k
  · rw [← k.1]; exact h

theorem hi_x_le (s : Segment) : (hi s).x ≤ s.boundingBox.maxX := by
  rcases lo_hi s with ⟨_, h, _⟩ | ⟨_, h, _⟩
  · rw [h]; exact (mem_boxPts.mp (mem_boundingBox_end s)).2.1
  · rw [h]; exact (mem_boxPts.mp (mem_boundingBox_start s)).2.1

theorem not_stop {s : Segment} {m : ℚ} (h : s.boundingBox.maxX ≤ m) : decide ((hi s).x > m) = false := by
  rw [decide_eq_false_iff_not, not_lt]
  exact (hi_x_le s).trans h

theorem foldl_max_le (l : List ℚ) : ∀ a, a ≤ l.foldl max a ∧ ∀ x ∈ l, x ≤ l.foldl max a := by
  induction l with
  | nil => intro a; simp
  | cons b l ih =>
    intro a
    obtain ⟨h1, h2⟩ := ih (max a b)
    refine ⟨(le_max_left a b).trans h1, fun x hx => ?_⟩
    rcases List.mem_cons.mp hx with rfl | hx
    · exact (le_max_right a x).trans h1
    · exact h2 x hx

theorem foldl_min_le (l : List ℚ) : ∀ a, l.foldl min a ≤ a ∧ ∀ x ∈ l, l.foldl min a ≤ x := by
  induction l with
  | nil => intro a; simp
  | cons b l ih =>
    intro a
    obtain ⟨h1, h2⟩ := ih (min a b)
    refine ⟨h1.trans (min_le_left a b), fun x hx => ?_⟩
    rcases List.mem_cons.mp hx with rfl | hx
    · exact h1.trans (min_le_right a x)
    · exact h2 x hx

theorem le_listMax {l : List ℚ} {x : ℚ} (h : x ∈ l) : x ≤ listMax l := by
  cases l with
  | nil => simp at h
  | cons a l =>
    rcases List.mem_cons.mp h with rfl | h
    · exact (foldl_max_le l x).1
    · exact (foldl_max_le l a).2 x h

theorem listMin_le {l : List ℚ} {x : ℚ} (h : x ∈ l) : listMin l ≤ x := by
  cases l with
  | nil => simp at h
  | cons a l =>
    rcases List.mem_cons.mp h with rfl | h
    · exact (foldl_min_le l x).1
    · exact (foldl_min_le l a).2 x h

theorem x_le_listMax {l : List Segment} {q : Point} (h : q ∈ segsPts l) :
    q.x ≤ listMax (l.map fun s => s.boundingBox.maxX) := by
  obtain ⟨s, hs, hq⟩ := h
  exact (mem_boxPts.mp (segPts_subset_boundingBox s hq)).2.1.trans (le_listMax (List.mem_map_of_mem hs))

theorem listMin_le_x {l : List Segment} {q : Point} (h : q ∈ segsPts l) :
    listMin (l.map fun s => s.boundingBox.minX) ≤ q.x := by
  obtain ⟨s, hs, hq⟩ := h
  exact (listMin_le (List.mem_map_of_mem hs)).trans (mem_boxPts.mp (segPts_subset_boundingBox s hq)).1

theorem meetsRange_of {s : Segment} {q : Point} (hq : q ∈ segPts s) {lo hi : ℚ} (h1 : lo ≤ q.x) (h2 : q.x ≤ hi) :
    s.meetsRange lo hi = true := by
  have m := mem_boxPts.mp (segPts_subset_boundingBox s hq)
  simp only [Segment.boundingBox] at m
  unfold Segment.meetsRange
  rw [Bool.and_eq_true, decide_eq_true_eq, decide_eq_true_eq]
  rw [max_comm, min_comm]
  exact ⟨h1.trans m.2.1, m.1.trans h2⟩

theorem mem_meets {l : List Segment} {q : Point} {lo hi : ℚ} (h1 : lo ≤ q.x) (h2 : q.x ≤ hi) :
    q ∈ segsPts (l.filter fun s => s.meetsRange lo hi) ↔ q ∈ segsPts l := by
  constructor
  · exact fun h => segsPts_filter_sub _ _ h
  · rintro ⟨s, hs, hq⟩
    exact ⟨s, List.mem_filter.mpr ⟨hs, meetsRange_of hq h1 h2⟩, hq⟩

/-! ### the four operations on lists of segments with boxes -/

section
variable {A B : List Segment} {a b : Box}

/-- Pieces against dropped segments. -/
theorem run_dropped {P : Segment → Segment → Prop} (hP : Sep P) {op : LinOp} {stop : Point → Bool} (hs : Mono stop)
    (hA : NoOverlap A) (hB : NoOverlap B) (pA : A.Pairwise P) (hb : segsPts B ⊆ boxPts b) {C1 C2 : List Segment}
    (c1 : ∀ s ∈ C1, s ∈ A.filter fun s => doBoxesHaveCommonContinuum s.boundingBox b) (c2 : ∀ s ∈ C2, s ∈ B)
    (n1 : NoOverlap C1) (n2 : NoOverlap C2) :
    ∀ r ∈ op.run stop C1 C2, ∀ d ∈ A.filter (fun s => !doBoxesHaveCommonContinuum s.boundingBox b), P r d := by
  intro r hr d hd
  obtain ⟨k1, k2, _⟩ := run_spec n1 n2 op hs
  obtain ⟨t, ht, hsub⟩ := k2 r hr
  have hr' := k1.1 r hr
  have hd' := List.mem_filter.mp hd
  have dd := hA.1 d hd'.1
  rcases List.mem_append.mp ht with k | k
  · exact hP.mono (pairwise_parts hP pA _ t (c1 t k) d hd) hr' dd hsub (fun _ h => h)
  · refine hP.symm (hP.box dd (noCommon_true (by simpa using hd'.2)) ?_)
    exact hsub.trans (segPts_sub_box hb (c2 t k))

theorem run_pairwise {P : Segment → Segment → Prop} (hP : Sep P) {op : LinOp} {stop : Point → Bool} (hs : Mono stop)
    (hA : NoOverlap A) (hB : NoOverlap B) : (op.run stop A B).Pairwise P := by
  obtain ⟨k1, _⟩ := run_spec hA hB op hs
  exact k1.2.imp_of_mem fun hs _ h => hP.noded (k1.1 _ hs) h

end
end Rene

namespace Rene
open Spec Sweep

section
variable {A B : List Segment} {a b : Box}

/-- What is claimed about a resulting list of components. -/
structure ListResult (A B l : List Segment) (T : Set Point) : Prop where
  nd : ∀ s ∈ l, s.start ≠ s.end
  pts : segsPts l = reg T
  pw : ∀ P, Sep P → A.Pairwise P → B.Pairwise P → l.Pairwise P

theorem union_list (hA : NoOverlap A) (hB : NoOverlap B) (ha : segsPts A ⊆ boxPts a) (hb : segsPts B ⊆ boxPts b) :
    ListResult A B (LinOp.union.run (fun _ => false)
        (A.filter fun s => doBoxesHaveCommonContinuum s.boundingBox b)
        (B.filter fun s => doBoxesHaveCommonContinuum s.boundingBox a)
      ++ (A.filter fun s => !doBoxesHaveCommonContinuum s.boundingBox b)
      ++ (B.filter fun s => !doBoxesHaveCommonContinuum s.boundingBox a))
      (segsPts A ∪ segsPts B) := by
  have n1 := noOverlap_filter hA fun s => doBoxesHaveCommonContinuum s.boundingBox b
  have n2 := noOverlap_filter hB fun s => doBoxesHaveCommonContinuum s.boundingBox a
  have hs : Mono (fun _ => false) := fun _ _ _ h => h
  obtain ⟨k1, k2, F, k3, k4⟩ := run_spec n1 n2 .union hs
  have hnd : ∀ s ∈ LinOp.union.run (fun _ => false)
        (A.filter fun s => doBoxesHaveCommonContinuum s.boundingBox b)
        (B.filter fun s => doBoxesHaveCommonContinuum s.boundingBox a)
      ++ (A.filter fun s => !doBoxesHaveCommonContinuum s.boundingBox b)
      ++ (B.filter fun s => !doBoxesHaveCommonContinuum s.boundingBox a), s.start ≠ s.end := by
    intro s h
    simp only [List.mem_append] at h
    rcases h with (h | h) | h
    · exact k1.1 s h
    · exact hA.1 s (List.mem_filter.mp h).1
    · exact hB.1 s (List.mem_filter.mp h).1
  refine ⟨hnd, ?_, ?_⟩
  · apply reg_eq_of_finite hnd F
    · intro q hq hF
      rw [segsPts_append, segsPts_append] at hq
      rcases hq with (h | h) | h
      · have := k3 q hF h
        exact this.elim (fun h => Or.inl (segsPts_filter_sub _ _ h)) (fun h => Or.inr (segsPts_filter_sub _ _ h))
      · exact Or.inl (segsPts_filter_sub _ _ h)
      · exact Or.inr (segsPts_filter_sub _ _ h)
    · intro q hq hF
      rw [segsPts_append, segsPts_append]
      rcases hq with h | h
      · rcases (segsPts_parts A (fun s => doBoxesHaveCommonContinuum s.boundingBox b) q).mp h with h | h
        · obtain ⟨s, hsm, hqs⟩ := h
          exact Or.inl (Or.inl (k4 q hF s (List.mem_append_left _ hsm) hqs rfl (Or.inl ⟨s, hsm, hqs⟩)))
        · exact Or.inl (Or.inr h)
      · rcases (segsPts_parts B (fun s => doBoxesHaveCommonContinuum s.boundingBox a) q).mp h with h | h
        · obtain ⟨s, hsm, hqs⟩ := h
          exact Or.inl (Or.inl (k4 q hF s (List.mem_append_right _ hsm) hqs rfl (Or.inr ⟨s, hsm, hqs⟩)))
        · exact Or.inr h
  · intro P hP pA pB
    rw [List.append_assoc, List.pairwise_append]
    refine ⟨run_pairwise hP hs n1 n2, ?_, ?_⟩
    · refine pairwise_append_dropped hP (fun s h => hA.1 s (List.mem_filter.mp h).1)
        ((segsPts_filter_sub _ _).trans hb) (fun s h => ?_) (pA.filter _) (pB.filter _)
      simpa using (List.mem_filter.mp h).2
    · intro r hr d hd
      rcases List.mem_append.mp hd with hd | hd
      · exact run_dropped hP hs hA hB pA hb (fun s h => h) (fun s h => (List.mem_filter.mp h).1) n1 n2 r hr d hd
      · obtain ⟨t, ht, hsub⟩ := k2 r hr
        have hd' := List.mem_filter.mp hd
        have dd := hB.1 d hd'.1
        rcases List.mem_append.mp ht with k | k
        · refine hP.symm (hP.box dd (noCommon_true (by simpa using hd'.2)) ?_)
          exact hsub.trans (segPts_sub_box ha (List.mem_filter.mp k).1)
        · exact hP.mono (pairwise_parts hP pB _ t k d hd) (k1.1 r hr) dd hsub (fun _ h => h)

theorem symmetric_list (hA : NoOverlap A) (hB : NoOverlap B) (ha : segsPts A ⊆ boxPts a)
    (hb : segsPts B ⊆ boxPts b) :
    ListResult A B (LinOp.symmetricDifference.run (fun _ => false)
        (A.filter fun s => doBoxesHaveCommonContinuum s.boundingBox b)
        (B.filter fun s => doBoxesHaveCommonContinuum s.boundingBox a)
      ++ (A.filter fun s => !doBoxesHaveCommonContinuum s.boundingBox b)
      ++ (B.filter fun s => !doBoxesHaveCommonContinuum s.boundingBox a))
      ((segsPts A \ segsPts B) ∪ (segsPts B \ segsPts A)) := by
  have n1 := noOverlap_filter hA fun s => doBoxesHaveCommonContinuum s.boundingBox b
  have n2 := noOverlap_filter hB fun s => doBoxesHaveCommonContinuum s.boundingBox a
  have hs : Mono (fun _ => false) := fun _ _ _ h => h
  obtain ⟨k1, k2, F, k3, k4⟩ := run_spec n1 n2 .symmetricDifference hs
  obtain ⟨F1, f1⟩ := exceptional_filter (l := A) hb
  obtain ⟨F2, f2⟩ := exceptional_filter (l := B) ha
  have hnd : ∀ s ∈ LinOp.symmetricDifference.run (fun _ => false)
        (A.filter fun s => doBoxesHaveCommonContinuum s.boundingBox b)
        (B.filter fun s => doBoxesHaveCommonContinuum s.boundingBox a)
      ++ (A.filter fun s => !doBoxesHaveCommonContinuum s.boundingBox b)
      ++ (B.filter fun s => !doBoxesHaveCommonContinuum s.boundingBox a), s.start ≠ s.end := by
    intro s h
    simp only [List.mem_append] at h
    rcases h with (h | h) | h
    · exact k1.1 s h
    · exact hA.1 s (List.mem_filter.mp h).1
    · exact hB.1 s (List.mem_filter.mp h).1
  have pA := fun q => segsPts_parts A (fun s => doBoxesHaveCommonContinuum s.boundingBox b) q
  have pB := fun q => segsPts_parts B (fun s => doBoxesHaveCommonContinuum s.boundingBox a) q
  refine ⟨hnd, ?_, ?_⟩
  · apply reg_eq_of_finite hnd (F ++ F1 ++ F2)
    · intro q hq hF
      simp only [List.mem_append, not_or] at hF
      obtain ⟨⟨hF0, hF1⟩, hF2⟩ := hF
      have g1 := f1 q hF1
      have g2 := f2 q hF2
      have pa := pA q
      have pb := pB q
      rw [segsPts_append, segsPts_append] at hq
      show (q ∈ segsPts A ∧ q ∉ segsPts B) ∨ (q ∈ segsPts B ∧ q ∉ segsPts A)
      rcases hq with (h | h) | h
      · have := k3 q hF0 h
        unfold LinOp.holds at this
        simp only at this
        rcases this with ⟨u, v⟩ | ⟨u, v⟩
        · left
          have hqa := pa.mpr (Or.inl u)
          refine ⟨hqa, fun z => ?_⟩
          rcases pb.mp z with z | z
          · exact v z
          · exact g2 z hqa
        · right
          have hqb := pb.mpr (Or.inl u)
          refine ⟨hqb, fun z => ?_⟩
          rcases pa.mp z with z | z
          · exact v z
          · exact g1 z hqb
      · exact Or.inl ⟨pa.mpr (Or.inr h), g1 h⟩
      · exact Or.inr ⟨pb.mpr (Or.inr h), g2 h⟩
    · intro q hq hF
      simp only [List.mem_append, not_or] at hF
      obtain ⟨⟨hF0, hF1⟩, hF2⟩ := hF
      rw [segsPts_append, segsPts_append]
      rcases hq with ⟨h, h'⟩ | ⟨h, h'⟩
      · rcases (pA q).mp h with h | h
        · obtain ⟨s, hsm, hqs⟩ := h
          exact Or.inl (Or.inl (k4 q hF0 s (List.mem_append_left _ hsm) hqs rfl
            (Or.inl ⟨⟨s, hsm, hqs⟩, fun z => h' (segsPts_filter_sub _ _ z)⟩)))
        · exact Or.inl (Or.inr h)
      · rcases (pB q).mp h with h | h
        · obtain ⟨s, hsm, hqs⟩ := h
          exact Or.inl (Or.inl (k4 q hF0 s (List.mem_append_right _ hsm) hqs rfl
            (Or.inr ⟨⟨s, hsm, hqs⟩, fun z => h' (segsPts_filter_sub _ _ z)⟩)))
        · exact Or.inr h
  · intro P hP pA pB
    rw [List.append_assoc, List.pairwise_append]
    refine ⟨run_pairwise hP hs n1 n2, ?_, ?_⟩
    · refine pairwise_append_dropped hP (fun s h => hA.1 s (List.mem_filter.mp h).1)
        ((segsPts_filter_sub _ _).trans hb) (fun s h => ?_) (pA.filter _) (pB.filter _)
      simpa using (List.mem_filter.mp h).2
    · intro r hr d hd
      rcases List.mem_append.mp hd with hd | hd
      · exact run_dropped hP hs hA hB pA hb (fun s h => h) (fun s h => (List.mem_filter.mp h).1) n1 n2 r hr d hd
      · obtain ⟨t, ht, hsub⟩ := k2 r hr
        have hd' := List.mem_filter.mp hd
        have dd := hB.1 d hd'.1
        rcases List.mem_append.mp ht with k | k
        · refine hP.symm (hP.box dd (noCommon_true (by simpa using hd'.2)) ?_)
          exact hsub.trans (segPts_sub_box ha (List.mem_filter.mp k).1)
        · exact hP.mono (pairwise_parts hP pB _ t k d hd) (k1.1 r hr) dd hsub (fun _ h => h)

theorem difference_list (hA : NoOverlap A) (hB : NoOverlap B) (ha : segsPts A ⊆ boxPts a)
    (hb : segsPts B ⊆ boxPts b) {lo hi : ℚ}
    (hlo : ∀ s ∈ A.filter (fun s => doBoxesHaveCommonContinuum s.boundingBox b), lo ≤ s.boundingBox.minX)
    (hhi : ∀ s ∈ A.filter (fun s => doBoxesHaveCommonContinuum s.boundingBox b), s.boundingBox.maxX ≤ hi) :
    ListResult A B (LinOp.difference.run (fun p => decide (p.x > hi))
        (A.filter fun s => doBoxesHaveCommonContinuum s.boundingBox b)
        ((B.filter fun s => doBoxesHaveCommonContinuum s.boundingBox a).filter fun s => s.meetsRange lo hi)
      ++ (A.filter fun s => !doBoxesHaveCommonContinuum s.boundingBox b))
      (segsPts A \ segsPts B) := by
  have n1 := noOverlap_filter hA fun s => doBoxesHaveCommonContinuum s.boundingBox b
  have n2 := noOverlap_filter (noOverlap_filter hB fun s => doBoxesHaveCommonContinuum s.boundingBox a)
    fun s => s.meetsRange lo hi
  have hs := mono_x hi
  obtain ⟨k1, k2, F, k3, k4⟩ := run_spec n1 n2 .difference hs
  obtain ⟨F1, f1⟩ := exceptional_filter (l := A) hb
  obtain ⟨F2, f2⟩ := exceptional_filter (l := B) ha
  have hnd : ∀ s ∈ LinOp.difference.run (fun p => decide (p.x > hi))
        (A.filter fun s => doBoxesHaveCommonContinuum s.boundingBox b)
        ((B.filter fun s => doBoxesHaveCommonContinuum s.boundingBox a).filter fun s => s.meetsRange lo hi)
      ++ (A.filter fun s => !doBoxesHaveCommonContinuum s.boundingBox b), s.start ≠ s.end := by
    intro s h
    simp only [List.mem_append] at h
    rcases h with h | h
    · exact k1.1 s h
    · exact hA.1 s (List.mem_filter.mp h).1
  have pA := fun q => segsPts_parts A (fun s => doBoxesHaveCommonContinuum s.boundingBox b) q
  have pB := fun q => segsPts_parts B (fun s => doBoxesHaveCommonContinuum s.boundingBox a) q
  refine ⟨hnd, ?_, ?_⟩
  · apply reg_eq_of_finite hnd (F ++ F1 ++ F2)
    · intro q hq hF
      simp only [List.mem_append, not_or] at hF
      obtain ⟨⟨hF0, hF1⟩, hF2⟩ := hF
      have g1 := f1 q hF1
      have g2 := f2 q hF2
      rw [segsPts_append] at hq
      rcases hq with h | h
      · obtain ⟨u, v⟩ := k3 q hF0 h
        have hqa := (pA q).mpr (Or.inl u)
        refine ⟨hqa, fun z => ?_⟩
        obtain ⟨s, hsm, hqs⟩ := u
        have bx := mem_boxPts.mp (segPts_subset_boundingBox s hqs)
        rcases (pB q).mp z with z | z
        · exact v ((mem_meets ((hlo s hsm).trans bx.1) (bx.2.1.trans (hhi s hsm))).mpr z)
        · exact g2 z hqa
      · exact ⟨(pA q).mpr (Or.inr h), g1 h⟩
    · intro q hq hF
      simp only [List.mem_append, not_or] at hF
      obtain ⟨⟨hF0, hF1⟩, hF2⟩ := hF
      rw [segsPts_append]
      obtain ⟨h, h'⟩ := hq
      rcases (pA q).mp h with h | h
      · obtain ⟨s, hsm, hqs⟩ := h
        exact Or.inl (k4 q hF0 s (List.mem_append_left _ hsm) hqs (not_stop (hhi s hsm))
          ⟨⟨s, hsm, hqs⟩, fun z => h' (segsPts_filter_sub _ _ (segsPts_filter_sub _ _ z))⟩)
      · exact Or.inr h
  · intro P hP pA pB
    rw [List.pairwise_append]
    refine ⟨run_pairwise hP hs n1 n2, pA.filter _, ?_⟩
    exact run_dropped hP hs hA hB pA hb (fun s h => h)
      (fun s h => (List.mem_filter.mp (List.mem_filter.mp h).1).1) n1 n2

theorem intersection_list (hA : NoOverlap A) (hB : NoOverlap B) (ha : segsPts A ⊆ boxPts a)
    (hb : segsPts B ⊆ boxPts b) {C1 C2 : List Segment} {lo hi : ℚ}
    (e1 : C1 = A.filter (fun s => doBoxesHaveCommonContinuum s.boundingBox b))
    (e2 : C2 = B.filter (fun s => doBoxesHaveCommonContinuum s.boundingBox a))
    (elo : lo = max (listMin (C1.map fun s => s.boundingBox.minX)) (listMin (C2.map fun s => s.boundingBox.minX)))
    (ehi : hi = min (listMax (C1.map fun s => s.boundingBox.maxX)) (listMax (C2.map fun s => s.boundingBox.maxX))) :
    FullyNoded (LinOp.intersection.run (fun p => decide (p.x > hi)) (C1.filter fun s => s.meetsRange lo hi)
      (C2.filter fun s => s.meetsRange lo hi)) ∧
    segsPts (LinOp.intersection.run (fun p => decide (p.x > hi)) (C1.filter fun s => s.meetsRange lo hi)
      (C2.filter fun s => s.meetsRange lo hi)) = reg (segsPts A ∩ segsPts B) := by
  have n1 := noOverlap_filter (noOverlap_filter hA fun s => doBoxesHaveCommonContinuum s.boundingBox b)
    fun s => s.meetsRange lo hi
  have n2 := noOverlap_filter (noOverlap_filter hB fun s => doBoxesHaveCommonContinuum s.boundingBox a)
    fun s => s.meetsRange lo hi
  rw [← e1] at n1
  rw [← e2] at n2
  obtain ⟨k1, k2, F, k3, k4⟩ := run_spec n1 n2 .intersection (mono_x hi)
  obtain ⟨F1, f1⟩ := exceptional_filter (l := A) hb
  obtain ⟨F2, f2⟩ := exceptional_filter (l := B) ha
  refine ⟨k1, ?_⟩
  apply reg_eq_of_finite k1.1 (F ++ F1 ++ F2)
  · intro q hq hF
    simp only [List.mem_append, not_or] at hF
    obtain ⟨u, v⟩ := k3 q hF.1.1 hq
    have u := segsPts_filter_sub _ _ u
    have v := segsPts_filter_sub _ _ v
    rw [e1] at u
    rw [e2] at v
    exact ⟨segsPts_filter_sub _ _ u, segsPts_filter_sub _ _ v⟩
  · intro q hq hF
    simp only [List.mem_append, not_or] at hF
    obtain ⟨⟨hF0, hF1⟩, hF2⟩ := hF
    obtain ⟨hqa, hqb⟩ := hq
    have u : q ∈ segsPts C1 := by
      rw [e1]
      rcases (segsPts_parts A (fun s => doBoxesHaveCommonContinuum s.boundingBox b) q).mp hqa with h | h
      · exact h
      · exact absurd hqb (f1 q hF1 h)
    have v : q ∈ segsPts C2 := by
      rw [e2]
      rcases (segsPts_parts B (fun s => doBoxesHaveCommonContinuum s.boundingBox a) q).mp hqb with h | h
      · exact h
      · exact absurd hqa (f2 q hF2 h)
    have hl : lo ≤ q.x := by rw [elo]; exact max_le (listMin_le_x u) (listMin_le_x v)
    have hh : q.x ≤ hi := by rw [ehi]; exact le_min (x_le_listMax u) (x_le_listMax v)
    have u' := (mem_meets (l := C1) hl hh).mpr u
    have v' := (mem_meets (l := C2) hl hh).mpr v
    rcases le_total (listMax (C1.map fun s => s.boundingBox.maxX)) (listMax (C2.map fun s => s.boundingBox.maxX)) with m | m
    · obtain ⟨s, hsm, hqs⟩ := u'
      refine k4 q hF0 s (List.mem_append_left _ hsm) hqs (not_stop ?_) ⟨⟨s, hsm, hqs⟩, v'⟩
      rw [ehi, min_eq_left m]
      exact le_listMax (List.mem_map_of_mem (f := fun s : Segment => s.boundingBox.maxX) (List.mem_filter.mp hsm).1)
    · obtain ⟨s, hsm, hqs⟩ := v'
      refine k4 q hF0 s (List.mem_append_right _ hsm) hqs (not_stop ?_) ⟨u', ⟨s, hsm, hqs⟩⟩
      rw [ehi, min_eq_right m]
      exact le_listMax (List.mem_map_of_mem (f := fun s : Segment => s.boundingBox.maxX) (List.mem_filter.mp hsm).1)

/-- When the box filters leave nothing of one operand, the operands share finitely many points only. -/
theorem finite_of_nil (hb : segsPts B ⊆ boxPts b)
    (h : A.filter (fun s => doBoxesHaveCommonContinuum s.boundingBox b) = []) :
    ∃ F : List Point, ∀ q ∉ F, q ∈ segsPts A → q ∉ segsPts B := by
  obtain ⟨F, hF⟩ := exceptional_filter (l := A) hb
  refine ⟨F, fun q hq hA => hF q hq ?_⟩
  rcases (segsPts_parts A (fun s => doBoxesHaveCommonContinuum s.boundingBox b) q).mp hA with k | k
  · rw [h] at k; simp [segsPts_nil] at k
  · exact k

theorem reg_inter_empty (h : ∃ F : List Point, ∀ q ∉ F, q ∈ segsPts A → q ∉ segsPts B) :
    segsPts [] = reg (segsPts A ∩ segsPts B) := by
  obtain ⟨F, hF⟩ := h
  exact reg_eq_of_finite (by simp) F (fun p hp => by simp [segsPts_nil] at hp)
    (fun p hp hq => absurd hp.2 (hF p hq hp.1))

theorem reg_diff_self (hA : NoOverlap A) (h : ∃ F : List Point, ∀ q ∉ F, q ∈ segsPts A → q ∉ segsPts B) :
    segsPts A = reg (segsPts A \ segsPts B) := by
  obtain ⟨F, hF⟩ := h
  exact reg_eq_of_finite hA.1 F (fun p hp hq => ⟨hp, hF p hq hp⟩) (fun p hp _ => hp.1)

theorem reg_symm_append (hA : NoOverlap A) (hB : NoOverlap B)
    (h : ∃ F : List Point, ∀ q ∉ F, q ∈ segsPts A → q ∉ segsPts B) :
    segsPts (A ++ B) = reg ((segsPts A \ segsPts B) ∪ (segsPts B \ segsPts A)) := by
  obtain ⟨F, hF⟩ := h
  refine reg_eq_of_finite ?_ F ?_ ?_
  · intro s hs
    rcases List.mem_append.mp hs with k | k
    · exact hA.1 s k
    · exact hB.1 s k
  · intro p hp hq
    rw [segsPts_append] at hp
    rcases hp with k | k
    · exact Or.inl ⟨k, hF p hq k⟩
    · exact Or.inr ⟨k, fun z => hF p hq z k⟩
  · intro p hp _
    rw [segsPts_append]
    exact hp.elim (fun k => Or.inl k.1) (fun k => Or.inr k.1)

/-- All of `A` dropped. -/
theorem pairwise_of_nil {P : Segment → Segment → Prop} (hP : Sep P) (hA : NoOverlap A)
    (hb : segsPts B ⊆ boxPts b) (h : A.filter (fun s => doBoxesHaveCommonContinuum s.boundingBox b) = [])
    (p1 : A.Pairwise P) (p2 : B.Pairwise P) : (A ++ B).Pairwise P := by
  refine pairwise_append_dropped hP hA.1 hb (fun s hs hc => ?_) p1 p2
  have : s ∈ A.filter (fun s => doBoxesHaveCommonContinuum s.boundingBox b) := List.mem_filter.mpr ⟨hs, hc⟩
  rw [h] at this
  simp at this

theorem pairwise_comm {P : Segment → Segment → Prop} (hP : Sep P) (h : (A ++ B).Pairwise P) :
    (B ++ A).Pairwise P := by
  rw [List.pairwise_append] at *
  exact ⟨h.2.1, h.1, fun s hs t ht => hP.symm (h.2.2 t ht s hs)⟩

end
end Rene
