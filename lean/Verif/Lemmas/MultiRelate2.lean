import Verif.Lemmas.MultiRelate
import Verif.Lemmas.Locate

/-! The scan of `relate_to_multisegment_segments`: touches and the result. -/

namespace Rene
open Spec

/-- The touched end is ignored by the code. -/
def nonTouched (A B : Point) (c : Segment) : Point :=
  if locatePointInSegment A B c.end = .boundary then c.start else c.end

/-- The touch is recorded. -/
def Rec (A B : Point) (c : Segment) : Prop :=
  SegRel .touch A B c.start c.end ∧ (c.start ≠ A ∧ A ≠ c.end) ∧ (c.start ≠ B ∧ B ≠ c.end)

theorem scale_eq {A B a b : Point} {t : ℚ} (h : cr a b (lerp A B t) = 0) (hD : cr A B a ≠ cr A B b) :
    toSegmentsIntersectionScale A B a b = t := by
  have e1 : crossMultiply A B a b = cr A B b - cr A B a := by unfold crossMultiply cr; ring
  have e2 : crossMultiply A a a b = t * (cr A B b - cr A B a) + cr a b (lerp A B t) := by
    unfold crossMultiply cr lerp; ring
  unfold toSegmentsIntersectionScale
  rw [e1, e2, h, add_zero, mul_div_assoc, div_self (sub_ne_zero.mpr hD.symm), mul_one]

theorem locate_boundary {a b p : Point} : locatePointInSegment a b p = .boundary ↔ p ∈ seg a b :=
  locatePointInSegment_iff a b p

/-- A component with an end inside of the segment. -/
theorem rec_of_end {A B p q : Point} {c : Segment} {t : ℚ} (hAB : A < B) (hc : c = ⟨p, q⟩ ∨ c = ⟨q, p⟩)
    (hp : p = lerp A B t) (hp' : p ∈ openSeg A B) (hq : cr A B q ≠ 0) :
    Rec A B c ∧ nonTouched A B c = q ∧ toSegmentsIntersectionScale A B c.start c.end = t := by
  have h1 := (mem_openSeg_iff hAB.ne).mp hp'
  have hpl : cr A B p = 0 := (mem_seg_iff.mp h1.1).1
  have hpq : p ≠ q := by rintro rfl; exact hq hpl
  have hqA : q ≠ A := by rintro rfl; exact hq (cr_self1 _ _)
  have hqB : q ≠ B := by rintro rfl; exact hq (cr_self2 _ _)
  have hqn : q ∉ seg A B := fun h => hq (mem_seg_iff.mp h).1
  rcases hc with rfl | rfl
  · refine ⟨⟨⟨p, ?_, by simp⟩, ⟨h1.2.1, hqA.symm⟩, ⟨h1.2.2, hqB.symm⟩⟩, ?_, ?_⟩
    · exact inter_singleton_of hAB.ne hpq (Or.inr hq) h1.1 (start_mem_seg _ _)
    · unfold nonTouched
      rw [if_neg]; rw [locate_boundary]; exact hqn
    · exact scale_eq (by rw [← hp]; exact cr_self1 _ _) (by rw [hpl]; exact hq.symm)
  · refine ⟨⟨⟨p, ?_, by simp⟩, ⟨hqA, h1.2.1.symm⟩, ⟨hqB, h1.2.2.symm⟩⟩, ?_, ?_⟩
    · exact inter_singleton_of hAB.ne hpq.symm (Or.inl hq) h1.1 (end_mem_seg _ _)
    · unfold nonTouched
      rw [if_pos]; rw [locate_boundary]; exact h1.1
    · exact scale_eq (by rw [← hp]; exact cr_self2 _ _) (by rw [hpl]; exact hq)

/-- A recorded touch is at an end of the component, or at an end of the segment. -/
theorem rec_cases {A B : Point} {c : Segment} (hAB : A < B) (hc : c.start ≠ c.end) (h : Rec A B c) :
    (∃ p q t, (c = ⟨p, q⟩ ∨ c = ⟨q, p⟩) ∧ p = lerp A B t ∧ p ∈ openSeg A B ∧ cr A B q ≠ 0) ∨
    (A ∈ openSeg c.start c.end ∧ toSegmentsIntersectionScale A B c.start c.end = 0) ∨
    (B ∈ openSeg c.start c.end ∧ toSegmentsIntersectionScale A B c.start c.end = 1) := by
  obtain ⟨ht, ⟨h1, h2⟩, ⟨h3, h4⟩⟩ := h
  have hnl : ¬ (cr A B c.start = 0 ∧ cr A B c.end = 0) := by
    rintro ⟨h5, h6⟩
    rcases touch_collinear hAB.ne hc ht h5 h6 with h | h | h | h
    · exact h1 h.symm
    · exact h2 h
    · exact h3 h.symm
    · exact h4 h
  obtain ⟨p, hp, hor⟩ := ht
  have hm : p ∈ seg A B ∩ seg c.start c.end := by rw [hp]; rfl
  obtain ⟨t, ht0, ht1, rfl⟩ := hm.1
  have hend : ∀ x : Point, x ∈ openSeg c.start c.end → cr A B x = 0 → cr A B c.start ≠ cr A B c.end := by
    rintro x ⟨u, h5, h6, rfl⟩ h7 h8
    rw [cr_lerp, h8] at h7
    have : cr A B c.end = 0 := by linarith
    exact hnl ⟨h8.trans this, this⟩
  rcases hor with h | h | h | h
  · right; left
    have hA : A ∈ openSeg c.start c.end := (mem_openSeg_iff hc).mpr ⟨h ▸ hm.2, h1.symm, h2⟩
    refine ⟨hA, scale_eq ?_ (hend A hA (cr_self1 _ _))⟩
    rw [lerp_zero]
    exact (mem_seg_iff.mp ((mem_openSeg_iff hc).mp hA).1).1
  · right; right
    have hB : B ∈ openSeg c.start c.end := (mem_openSeg_iff hc).mpr ⟨h ▸ hm.2, h3.symm, h4⟩
    refine ⟨hB, scale_eq ?_ (hend B hB (cr_self2 _ _))⟩
    rw [lerp_one]
    exact (mem_seg_iff.mp ((mem_openSeg_iff hc).mp hB).1).1
  · left
    refine ⟨c.start, c.end, t, Or.inl rfl, h.symm, ?_, ?_⟩
    · exact (mem_openSeg_iff hAB.ne).mpr ⟨h ▸ hm.1, h1, h3⟩
    · intro h5
      exact hnl ⟨by rw [← h]; exact cr_lerp_self _ _ _, h5⟩
  · left
    refine ⟨c.end, c.start, t, Or.inr rfl, h.symm, ?_, ?_⟩
    · exact (mem_openSeg_iff hAB.ne).mpr ⟨h ▸ hm.1, h2.symm, h4.symm⟩
    · intro h5
      exact hnl ⟨h5, by rw [← h]; exact cr_lerp_self _ _ _⟩

/-- Equal scales on different sides are a passage through the segment. -/
theorem passesEnds_iff {A B : Point} {l : List Segment} (hAB : A < B) (hl : WellJoined l) :
    PassesEnds A B l ↔ ∃ t, (∃ c ∈ l, Rec A B c ∧ orient A B (nonTouched A B c) = .counterclockwise ∧
        toSegmentsIntersectionScale A B c.start c.end = t) ∧
      ∃ c ∈ l, Rec A B c ∧ orient A B (nonTouched A B c) ≠ .counterclockwise ∧
        toSegmentsIntersectionScale A B c.start c.end = t := by
  have hsym : Std.Symm Joined := ⟨fun x y h => by
    unfold Joined Apart at *; rw [Set.inter_comm, Set.inter_comm (openSeg _ _)]; exact h⟩
  constructor
  · rintro ⟨p, u, w, hp, hlt, hu, hw⟩
    rw [← cr_eq_area2, ← cr_eq_area2] at hlt
    obtain ⟨t, h0, h1, hpe⟩ := id hp
    have hu0 : cr A B u ≠ 0 := fun h => by rw [h] at hlt; simp at hlt
    have hw0 : cr A B w ≠ 0 := fun h => by rw [h] at hlt; simp at hlt
    have hcu : ∃ c ∈ l, c = ⟨p, u⟩ ∨ c = ⟨u, p⟩ := by
      rcases hu with h | h
      · exact ⟨_, h, Or.inl rfl⟩
      · exact ⟨_, h, Or.inr rfl⟩
    have hcw : ∃ c ∈ l, c = ⟨p, w⟩ ∨ c = ⟨w, p⟩ := by
      rcases hw with h | h
      · exact ⟨_, h, Or.inl rfl⟩
      · exact ⟨_, h, Or.inr rfl⟩
    obtain ⟨c, hc, hc'⟩ := hcu
    obtain ⟨d, hd, hd'⟩ := hcw
    obtain ⟨r1, r2, r3⟩ := rec_of_end hAB hc' hpe hp hu0
    obtain ⟨s1, s2, s3⟩ := rec_of_end hAB hd' hpe hp hw0
    rcases lt_or_gt_of_ne hu0 with h | h
    · have hw' : 0 < cr A B w := by
        by_contra hn
        have := mul_nonneg_of_nonpos_of_nonpos h.le (not_lt.mp hn)
        linarith
      exact ⟨t, ⟨d, hd, s1, by rw [s2, orient_ccw]; exact hw', s3⟩, c, hc, r1,
        by rw [r2, Ne, orient_ccw]; exact not_lt.mpr h.le, r3⟩
    · have hw' : cr A B w < 0 := by
        by_contra hn
        have := mul_nonneg h.le (not_lt.mp hn)
        linarith
      exact ⟨t, ⟨c, hc, r1, by rw [r2, orient_ccw]; exact h, r3⟩, d, hd, s1,
        by rw [s2, Ne, orient_ccw]; exact not_lt.mpr hw'.le, s3⟩
  · rintro ⟨t, ⟨c, hc, hr, ho, hs⟩, d, hd, hr', ho', hs'⟩
    have hne : c ≠ d := by rintro rfl; exact ho' ho
    have hj := (List.Pairwise.forall hl.2 hc hd hne).2
    have inner : ∀ {p : Point} {x : ℚ}, p = lerp A B x → p ∈ openSeg A B → x ≠ 0 ∧ x ≠ 1 := by
      intro p x hx hm
      have := (mem_openSeg_iff hAB.ne).mp hm
      constructor
      · rintro rfl; exact this.2.1 (by rw [hx, lerp_zero])
      · rintro rfl; exact this.2.2 (by rw [hx, lerp_one])
    rcases rec_cases hAB (hl.1 c hc) hr with ⟨p, q, x, h1, h2, h3, h4⟩ | ⟨h1, h2⟩ | ⟨h1, h2⟩
    · obtain ⟨-, r2, r3⟩ := rec_of_end hAB h1 h2 h3 h4
      rcases rec_cases hAB (hl.1 d hd) hr' with ⟨p', q', x', h1', h2', h3', h4'⟩ | ⟨h1', h2'⟩ | ⟨h1', h2'⟩
      · obtain ⟨-, s2, s3⟩ := rec_of_end hAB h1' h2' h3' h4'
        have hx : x = x' := by rw [← r3, ← s3, hs, hs']
        have hpp : p' = p := by rw [h2, h2', hx]
        subst hpp
        rw [r2, orient_ccw] at ho
        rw [s2, Ne, orient_ccw] at ho'
        refine ⟨p', q, q', h3, ?_, ?_, ?_⟩
        · rw [← cr_eq_area2, ← cr_eq_area2]
          exact mul_neg_of_pos_of_neg ho (lt_of_le_of_ne (not_lt.mp ho') h4')
        · rcases h1 with rfl | rfl
          · exact Or.inl hc
          · exact Or.inr hc
        · rcases h1' with rfl | rfl
          · exact Or.inl hd
          · exact Or.inr hd
      · exact absurd (by rw [← r3, hs, ← hs', h2']) (inner h2 h3).1
      · exact absurd (by rw [← r3, hs, ← hs', h2']) (inner h2 h3).2
    · rcases rec_cases hAB (hl.1 d hd) hr' with ⟨p', q', x', h1', h2', h3', h4'⟩ | ⟨h1', h2'⟩ | ⟨h1', h2'⟩
      · obtain ⟨-, s2, s3⟩ := rec_of_end hAB h1' h2' h3' h4'
        exact absurd (by rw [← s3, hs', ← hs, h2]) (inner h2' h3').1
      · exfalso
        have : A ∈ openSeg c.start c.end ∩ openSeg d.start d.end := ⟨h1, h1'⟩
        rw [hj] at this; exact this
      · rw [h2] at hs; rw [h2'] at hs'; rw [← hs] at hs'; norm_num at hs'
    · rcases rec_cases hAB (hl.1 d hd) hr' with ⟨p', q', x', h1', h2', h3', h4'⟩ | ⟨h1', h2'⟩ | ⟨h1', h2'⟩
      · obtain ⟨-, s2, s3⟩ := rec_of_end hAB h1' h2' h3' h4'
        exact absurd (by rw [← s3, hs', ← hs, h2]) (inner h2' h3').2
      · rw [h2] at hs; rw [h2'] at hs'; rw [← hs] at hs'; norm_num at hs'
      · exfalso
        have : B ∈ openSeg c.start c.end ∩ openSeg d.start d.end := ⟨h1, h1'⟩
        rw [hj] at this; exact this

/-- What the variables mean after the components `pre`. -/
structure MInv (A B : Point) (pre : List Segment) (s : MultiScan) : Prop where
  sup : s.isSegmentSuperset = true ↔ ∀ c ∈ pre, segPts c ⊆ seg A B
  noov : s.hasNoOverlap = true ↔ ∀ c ∈ pre, AtMostOne (seg A B ∩ segPts c)
  touch : s.hasNoOverlap = true → (s.hasNoTouch = true ↔ ∀ c ∈ pre, ¬ SegRel .touch A B c.start c.end)
  cross : s.hasNoOverlap = true → (s.hasNoCross = true ↔ ∀ c ∈ pre, ¬ SegRel .cross A B c.start c.end)
  ccw : s.hasNoOverlap = true → s.hasNoCross = true → ∀ t, t ∈ s.counterclockwiseMiddleTouchScales ↔
    ∃ c ∈ pre, Rec A B c ∧ orient A B (nonTouched A B c) = .counterclockwise ∧
        toSegmentsIntersectionScale A B c.start c.end = t
  cw : s.hasNoOverlap = true → s.hasNoCross = true → ∀ t, t ∈ s.clockwiseMiddleTouchScales ↔
    ∃ c ∈ pre, Rec A B c ∧ orient A B (nonTouched A B c) ≠ .counterclockwise ∧
        toSegmentsIntersectionScale A B c.start c.end = t
  cover : Cover A B pre s.start s.end s.components

theorem forall_append_singleton {α : Type} {l : List α} {x : α} {P : α → Prop} :
    (∀ c ∈ l ++ [x], P c) ↔ (∀ c ∈ l, P c) ∧ P x := by
  simp only [List.mem_append, List.mem_singleton]
  exact ⟨fun h => ⟨fun c hc => h c (Or.inl hc), h x (Or.inr rfl)⟩, fun h c hc => hc.elim (h.1 c) (fun h' => h' ▸ h.2)⟩

theorem exists_append_singleton {α : Type} {l : List α} {x : α} {P : α → Prop} :
    (∃ c ∈ l ++ [x], P c) ↔ (∃ c ∈ l, P c) ∨ P x := by
  simp only [List.mem_append, List.mem_singleton]
  constructor
  · rintro ⟨c, hc | rfl, h⟩
    · exact Or.inl ⟨c, hc, h⟩
    · exact Or.inr h
  · rintro (⟨c, hc, h⟩ | h)
    · exact ⟨c, Or.inl hc, h⟩
    · exact ⟨x, Or.inr rfl, h⟩

theorem mInv_init {A B : Point} (hAB : A < B) : MInv A B [] { start := A, «end» := B } := by
  refine ⟨by simp, by simp, by simp, by simp, by simp, by simp, cr_self1 _ _, cr_self2 _ _, le_rfl, hAB.le, le_rfl,
    by simp, by simp, ?_⟩
  intro p _ _ _
  simp

/-- A step at a component without overlap. -/
theorem MInv.step_apart {A B : Point} {pre : List Segment} {s s' : MultiScan} {c : Segment} (h : MInv A B pre s)
    (hc : c.start ≠ c.end) (hone : AtMostOne (seg A B ∩ segPts c))
    (e1 : s'.isSegmentSuperset = false) (e2 : s'.hasNoOverlap = s.hasNoOverlap)
    (e3 : s.hasNoOverlap = true → (s'.hasNoTouch = true ↔ s.hasNoTouch = true ∧ ¬ SegRel .touch A B c.start c.end))
    (e4 : s.hasNoOverlap = true → (s'.hasNoCross = true ↔ s.hasNoCross = true ∧ ¬ SegRel .cross A B c.start c.end))
    (e5 : s.hasNoOverlap = true → s'.hasNoCross = true → ∀ t, t ∈ s'.counterclockwiseMiddleTouchScales ↔
      t ∈ s.counterclockwiseMiddleTouchScales ∨ (Rec A B c ∧ orient A B (nonTouched A B c) = .counterclockwise ∧
        toSegmentsIntersectionScale A B c.start c.end = t))
    (e6 : s.hasNoOverlap = true → s'.hasNoCross = true → ∀ t, t ∈ s'.clockwiseMiddleTouchScales ↔
      t ∈ s.clockwiseMiddleTouchScales ∨ (Rec A B c ∧ orient A B (nonTouched A B c) ≠ .counterclockwise ∧
        toSegmentsIntersectionScale A B c.start c.end = t))
    (e7 : s'.start = s.start) (e8 : s'.end = s.end) (e9 : s'.components = s.components) :
    MInv A B (pre ++ [c]) s' := by
  have hns : ¬ segPts c ⊆ seg A B := by
    intro hs
    rw [Set.inter_eq_right.mpr hs] at hone
    exact not_atMostOne_seg hc hone
  refine ⟨?_, ?_, ?_, ?_, ?_, ?_, ?_⟩
  · rw [e1, forall_append_singleton]; simp [hns]
  · rw [e2, forall_append_singleton, h.noov]; simp [hone]
  · intro hn; rw [e2] at hn; rw [e3 hn, forall_append_singleton, h.touch hn]
  · intro hn; rw [e2] at hn; rw [e4 hn, forall_append_singleton, h.cross hn]
  · intro hn hx t; rw [e2] at hn
    rw [e5 hn hx, exists_append_singleton, h.ccw hn ((e4 hn).mp hx).1]
  · intro hn hx t; rw [e2] at hn
    rw [e6 hn hx, exists_append_singleton, h.cw hn ((e4 hn).mp hx).1]
  · rw [e7, e8, e9]; exact h.cover.skip hone

/-- A step at an overlapping component. -/
theorem MInv.step_overlap {A B : Point} {pre : List Segment} {s s' : MultiScan} {c : Segment} (h : MInv A B pre s)
    (hone : ¬ AtMostOne (seg A B ∩ segPts c))
    (e1 : s'.isSegmentSuperset = true ↔ s.isSegmentSuperset = true ∧ segPts c ⊆ seg A B)
    (e2 : s'.hasNoOverlap = false) (hcov : Cover A B (pre ++ [c]) s'.start s'.end s'.components) :
    MInv A B (pre ++ [c]) s' := by
  refine ⟨?_, ?_, ?_, ?_, ?_, ?_, hcov⟩
  · rw [e1, forall_append_singleton, h.sup]
  · rw [e2, forall_append_singleton]; simp [hone]
  all_goals rw [e2]; intro h; cases h

theorem sorted_seg {c : Segment} (hc : c.start ≠ c.end) :
    ∃ u v, toSortedPair c.start c.end = (u, v) ∧ u < v ∧ segPts c = seg u v ∧
      ((u = c.start ∧ v = c.end) ∨ (u = c.end ∧ v = c.start)) := by
  rcases toSortedPair_cases c.start c.end hc with ⟨h, e⟩ | ⟨h, e⟩
  · exact ⟨_, _, e, h, rfl, Or.inl ⟨rfl, rfl⟩⟩
  · exact ⟨_, _, e, h, seg_comm _ _, Or.inr ⟨rfl, rfl⟩⟩

theorem ends_or_left {p q u v t : Point} (h : (u = p ∧ v = q) ∨ (u = q ∧ v = p)) (hn : t ≠ v) :
    (t = p ∨ t = q) ↔ t = u := by
  rcases h with ⟨rfl, rfl⟩ | ⟨rfl, rfl⟩ <;> tauto

theorem ends_or_right {p q u v t : Point} (h : (u = p ∧ v = q) ∨ (u = q ∧ v = p)) (hn : t ≠ u) :
    (t = p ∨ t = q) ↔ t = v := by
  rcases h with ⟨rfl, rfl⟩ | ⟨rfl, rfl⟩ <;> tauto

set_option maxHeartbeats 1600000 in
theorem multiScanLoop_spec {A B : Point} (hAB : A < B) : ∀ (rest pre : List Segment) (s : MultiScan),
    MInv A B pre s → NoOverlap (pre ++ rest) →
    (∃ s', multiScanLoop A B s rest = some s' ∧ MInv A B (pre ++ rest) s') ∨
    (multiScanLoop A B s rest = none ∧ ∃ e ∈ rest, seg A B ⊆ segPts e) := by
  intro rest
  induction rest with
  | nil =>
    intro pre s h _
    exact Or.inl ⟨s, rfl, by simpa using h⟩
  | cons c rest ih =>
    intro pre s h hno
    have hcc : c.start ≠ c.end := hno.1 c (by simp)
    have hapart : ∀ x ∈ pre, AtMostOne (segPts c ∩ segPts x) := by
      intro x hx
      have := hno.2
      rw [List.pairwise_append] at this
      have := this.2.2 x hx c (by simp)
      unfold Apart at this
      rwa [Set.inter_comm]
    have e1 : pre ++ c :: rest = (pre ++ [c]) ++ rest := by simp
    have next : ∀ s', MInv A B (pre ++ [c]) s' → multiScanLoop A B s (c :: rest) = multiScanLoop A B s' rest →
        (∃ s', multiScanLoop A B s (c :: rest) = some s' ∧ MInv A B (pre ++ c :: rest) s') ∨
        (multiScanLoop A B s (c :: rest) = none ∧ ∃ e ∈ c :: rest, seg A B ⊆ segPts e) := by
      intro s' hs' heq
      rw [e1, heq]
      rcases ih (pre ++ [c]) s' hs' (by rw [← e1]; exact hno) with h' | ⟨h', x, hx, hx'⟩
      · exact Or.inl h'
      · exact Or.inr ⟨h', x, List.mem_cons_of_mem _ hx, hx'⟩
    have hr := relate_sound hAB.ne hcc
    obtain ⟨u, v, hsp, huv, hpts, hends⟩ := sorted_seg hcc
    have hone' : ∀ x ∈ pre, AtMostOne (seg u v ∩ segPts x) := by rw [← hpts]; exact hapart
    have hline : ¬ AtMostOne (seg A B ∩ segPts c) → cr A B u = 0 ∧ cr A B v = 0 ∧ A < v ∧ u < B := by
      intro hn
      have h1 : cr A B u = 0 ∧ cr A B v = 0 := by
        by_contra hne
        apply hn
        rw [hpts]
        refine inter_atMostOne hAB.ne huv.ne ?_
        by_cases h' : cr A B u = 0
        · exact Or.inr fun h'' => hne ⟨h', h''⟩
        · exact Or.inl h'
      rw [hpts, not_atMostOne_collinear hAB huv h1.1 h1.2] at hn
      exact ⟨h1.1, h1.2, hn⟩
    rcases hrel : relateToSegmentEndpoints A B c.start c.end <;> rw [hrel] at hr <;> try exact hr.elim
    · -- component
      exact Or.inr ⟨by rw [multiScanLoop, hrel], c, by simp, hr.1⟩
    · -- composite
      refine next (s.composite c.start c.end) ?_ (by rw [multiScanLoop, hrel])
      have hsub : seg u v ⊆ seg A B := hpts ▸ hr.1
      have hn : ¬ AtMostOne (seg A B ∩ segPts c) := by
        rw [hpts, Set.inter_eq_right.mpr hsub]; exact not_atMostOne_seg huv.ne
      obtain ⟨hu, hv, hAv, huB⟩ := hline hn
      obtain ⟨hAu, hvB⟩ := (seg_subset_of_collinear hAB huv hu hv).mp hsub
      obtain ⟨k1, k2, k3, k4, k5⟩ := h.cover.composite hAB hpts hu hv huv hAu hvB hone'
      have hmax : (if c.start.ltB c.end then c.end else c.start) = v := by
        rcases hends with ⟨rfl, rfl⟩ | ⟨rfl, rfl⟩
        · rw [if_pos (Point.ltB_iff.mpr huv)]
        · rw [if_neg (by rw [Point.ltB_iff]; exact not_lt.mpr huv.le)]
      have hmin : (if c.end.ltB c.start then c.end else c.start) = u := by
        rcases hends with ⟨rfl, rfl⟩ | ⟨rfl, rfl⟩
        · rw [if_neg (by rw [Point.ltB_iff]; exact not_lt.mpr huv.le)]
        · rw [if_pos (Point.ltB_iff.mpr huv)]
      have hst : (s.start = c.start ∨ s.start = c.end) ↔ s.start = u := by
        have : s.start ≠ v := (k1.trans_lt huv).ne
        exact ends_or_left hends this
      have hen : (s.end = c.start ∨ s.end = c.end) ↔ s.end = v := by
        have : s.end ≠ u := (huv.trans_le k2).ne'
        exact ends_or_right hends this
      refine h.step_overlap hn ?_ ?_ ?_
      · have : segPts c ⊆ seg A B := hr.1
        simp only [this, and_true]
        unfold MultiScan.composite
        simp only
        split
        · rfl
        · split <;> rfl
      · unfold MultiScan.composite
        simp only
        split
        · rfl
        · split <;> rfl
      · unfold MultiScan.composite
        simp only [hst, hen, hmax, hmin, hsp]
        by_cases g1 : s.start = u
        · rw [if_pos g1]; exact k3 g1
        · rw [if_neg g1]
          by_cases g2 : s.end = v
          · rw [if_pos g2]; exact k4 g2
          · rw [if_neg g2]; exact k5
    · -- cross
      refine next s.cross ?_ (by rw [multiScanLoop, hrel])
      have hone : AtMostOne (seg A B ∩ segPts c) := by
        obtain ⟨p, hp, -⟩ := hr; unfold segPts; rw [hp]; exact atMostOne_singleton p
      have hnt : ¬ SegRel .touch A B c.start c.end := fun h' => by
        have := SegRel_unique hAB.ne hcc hr h'; cases this
      unfold MultiScan.cross
      by_cases hn : s.hasNoOverlap = true
      · simp only
        rw [if_pos hn]
        try simp only
        exact h.step_apart hcc hone rfl rfl (fun _ => by simp [hnt]) (fun _ => by simp [hr])
          (fun _ h' => by cases h') (fun _ h' => by cases h') rfl rfl rfl
      · simp only
        rw [if_neg hn]
        try simp only
        exact h.step_apart hcc hone rfl rfl (fun h' => absurd h' hn) (fun h' => absurd h' hn)
          (fun h' => absurd h' hn) (fun h' => absurd h' hn) rfl rfl rfl
    · -- disjoint
      refine next { s with isSegmentSuperset := false } ?_ (by rw [multiScanLoop, hrel] <;> simp)
      have hone : AtMostOne (seg A B ∩ segPts c) := by
        unfold segPts; rw [show seg A B ∩ seg c.start c.end = ∅ from hr]; intro p hp; exact absurd hp (by simp)
      have hnt : ¬ SegRel .touch A B c.start c.end := fun h' => by
        have := SegRel_unique hAB.ne hcc hr h'; cases this
      have hnc : ¬ SegRel .cross A B c.start c.end := fun h' => by
        have := SegRel_unique hAB.ne hcc hr h'; cases this
      exact h.step_apart hcc hone rfl rfl (fun _ => by simp [hnt]) (fun _ => by simp [hnc])
        (fun _ _ t => by simp [Rec, hnt]) (fun _ _ t => by simp [Rec, hnt]) rfl rfl rfl
    · -- equal
      exact Or.inr ⟨by rw [multiScanLoop, hrel], c, by simp, (hr : seg A B = _).le⟩
    · -- overlap
      refine next (s.overlap c.start c.end) ?_ (by rw [multiScanLoop, hrel])
      have hn : ¬ AtMostOne (seg A B ∩ segPts c) := hr.2.2
      obtain ⟨hu, hv, hAv, huB⟩ := hline hn
      have n1 : ¬ (A ≤ u ∧ v ≤ B) := by
        rw [← seg_subset_of_collinear hAB huv hu hv, ← hpts]; exact hr.2.1
      have n2 : ¬ (u ≤ A ∧ B ≤ v) := by
        have h' := collinear_symm hAB.ne hu hv
        rw [← seg_subset_of_collinear huv hAB h'.1 h'.2, ← hpts]; exact hr.1
      obtain ⟨k1, k2⟩ := h.cover.overlap hAB hpts hu hv huv hone'
      have hse := h.cover.se
      have hpair : toSortedPair s.start s.end = (s.start, s.end) := by
        unfold toSortedPair
        split
        · rfl
        · next h' =>
          rw [Point.ltB_iff] at h'
          have := le_antisymm hse (not_lt.mp h')
          rw [this]
      refine h.step_overlap hn ?_ rfl ?_
      · have : ¬ segPts c ⊆ seg A B := hr.2.1
        simp [MultiScan.overlap, this]
      · unfold MultiScan.overlap subtractSegmentsOverlap
        simp only [hpair, hsp, Point.ltB_iff]
        by_cases huA : u < A
        · have hvB : v < B := lt_of_not_ge fun h' => n2 ⟨huA.le, h'⟩
          obtain ⟨j1, j2⟩ := k1 huA hAv hvB
          rw [if_pos (by rw [j1]; exact ⟨huA, hAv⟩)]
          exact j2
        · have hBv : B < v := lt_of_not_ge fun h' => n1 ⟨not_lt.mp huA, h'⟩
          have hAu : A < u := lt_of_not_ge fun h' => n2 ⟨h', hBv.le⟩
          obtain ⟨j1, j2⟩ := k2 hAu huB hBv
          rw [if_neg (fun h' => absurd h'.1 (not_lt.mpr j1))]
          exact j2
    · -- touch
      refine next (s.touch A B c.start c.end) ?_ (by rw [multiScanLoop, hrel])
      have hone : AtMostOne (seg A B ∩ segPts c) := by
        obtain ⟨p, hp, -⟩ := hr; unfold segPts; rw [hp]; exact atMostOne_singleton p
      have hnc : ¬ SegRel .cross A B c.start c.end := fun h' => by
        have := SegRel_unique hAB.ne hcc hr h'; cases this
      unfold MultiScan.touch
      by_cases hn : s.hasNoOverlap = true
      · simp only
        rw [if_pos hn]
        try simp only
        by_cases hcnd : s.hasNoCross = true ∧ (c.start ≠ A ∧ A ≠ c.end) ∧ (c.start ≠ B ∧ B ≠ c.end)
        · rw [if_pos hcnd]
          have hrec : Rec A B c := ⟨hr, hcnd.2⟩
          rw [show (if locatePointInSegment A B c.end = .boundary then c.start else c.end) = nonTouched A B c from rfl]
          by_cases ho : orient A B (nonTouched A B c) = .counterclockwise
          · rw [if_pos ho]
            refine h.step_apart hcc hone rfl rfl (fun _ => by simp [hr]) (fun _ => by simp [hnc])
              (fun _ _ t => ?_) (fun _ _ t => by simp [ho]) rfl rfl rfl
            simp only [List.mem_append, List.mem_singleton, hrec, ho, true_and]
            tauto
          · rw [if_neg ho]
            refine h.step_apart hcc hone rfl rfl (fun _ => by simp [hr]) (fun _ => by simp [hnc])
              (fun _ _ t => by simp [ho]) (fun _ _ t => ?_) rfl rfl rfl
            simp only [List.mem_append, List.mem_singleton, hrec, ne_eq, ho, not_false_eq_true, true_and]
            tauto
        · rw [if_neg hcnd]
          have hnrec : s.hasNoCross = true → ¬ Rec A B c := fun h' h'' => hcnd ⟨h', h''.2⟩
          exact h.step_apart hcc hone rfl rfl (fun _ => by simp [hr]) (fun _ => by simp [hnc])
            (fun _ h' t => by simp [hnrec h']) (fun _ h' t => by simp [hnrec h']) rfl rfl rfl
      · simp only
        rw [if_neg hn]
        try simp only
        exact h.step_apart hcc hone rfl rfl (fun h' => absurd h' hn) (fun h' => absurd h' hn)
          (fun h' => absurd h' hn) (fun h' => absurd h' hn) rfl rfl rfl

/-- The result from the variables. -/
theorem MInv.result_sound {A B : Point} {l : List Segment} {s : MultiScan} (hAB : A < B) (hl : WellJoined l)
    (h : MInv A B l s) (hne : l ≠ []) : MultisegmentRel s.result A B l := by
  have hno : NoOverlap l := ⟨hl.1, hl.2.imp fun h => h.1⟩
  have hsup : s.isSegmentSuperset = true ↔ segsPts l ⊆ seg A B := by
    rw [h.sup]
    constructor
    · rintro h' p ⟨c, hc, hp⟩; exact h' c hc hp
    · intro h' c hc p hp; exact h' ⟨c, hc, hp⟩
  by_cases hn : s.hasNoOverlap = true
  · have hov : ¬ HasOverlap A B l := not_hasOverlap_iff.mpr (h.noov.mp hn)
    unfold MultiScan.result
    rw [if_pos hn]
    simp only
    generalize hX : (if s.hasNoCross = true ∧ s.clockwiseMiddleTouchScales ≠ [] ∧ s.counterclockwiseMiddleTouchScales ≠ [] then
        if ((if s.clockwiseMiddleTouchScales.length < s.counterclockwiseMiddleTouchScales.length
      then s.clockwiseMiddleTouchScales else s.counterclockwiseMiddleTouchScales).any fun scale =>
        decide (scale ∈ if s.clockwiseMiddleTouchScales.length < s.counterclockwiseMiddleTouchScales.length
      then s.counterclockwiseMiddleTouchScales else s.clockwiseMiddleTouchScales)) = true then false else s.hasNoCross
      else s.hasNoCross) = X
    have hXc : X = true ↔ ¬ MultisegmentCrosses A B l := by
      unfold MultisegmentCrosses
      rw [passesEnds_iff hAB hl]
      have hany : ((if s.clockwiseMiddleTouchScales.length < s.counterclockwiseMiddleTouchScales.length
          then s.clockwiseMiddleTouchScales else s.counterclockwiseMiddleTouchScales).any fun scale =>
          decide (scale ∈ if s.clockwiseMiddleTouchScales.length < s.counterclockwiseMiddleTouchScales.length
          then s.counterclockwiseMiddleTouchScales else s.clockwiseMiddleTouchScales)) = true ↔
          ∃ t, t ∈ s.counterclockwiseMiddleTouchScales ∧ t ∈ s.clockwiseMiddleTouchScales := by
        rw [List.any_eq_true]
        by_cases hlen : s.clockwiseMiddleTouchScales.length < s.counterclockwiseMiddleTouchScales.length
        · simp only [hlen, if_true, decide_eq_true_iff]
          exact ⟨fun ⟨t, h1, h2⟩ => ⟨t, h2, h1⟩, fun ⟨t, h1, h2⟩ => ⟨t, h2, h1⟩⟩
        · simp only [hlen, if_false, decide_eq_true_iff]
      rcases hx : s.hasNoCross with - | -
      · have : X = false := by rw [← hX, hx]; simp
        rw [this]
        simp only [Bool.false_eq_true, false_iff, not_not]
        left
        have := h.cross hn
        rw [hx] at this
        simp only [Bool.false_eq_true, false_iff, not_forall, not_not] at this
        obtain ⟨c, hc, h'⟩ := this
        exact ⟨c, hc, h'⟩
      · have hnocross := (h.cross hn).mp hx
        have hno1 : ¬ ∃ c ∈ l, SegRel .cross A B c.start c.end := fun ⟨c, hc, h'⟩ => hnocross c hc h'
        simp only [hno1, false_or]
        simp only [← h.ccw hn hx, ← h.cw hn hx]
        rw [← hany]
        rw [← hX, hx]
        by_cases ha : s.clockwiseMiddleTouchScales ≠ [] ∧ s.counterclockwiseMiddleTouchScales ≠ []
        · rw [if_pos ⟨rfl, ha⟩]
          by_cases hb : ((if s.clockwiseMiddleTouchScales.length < s.counterclockwiseMiddleTouchScales.length
            then s.clockwiseMiddleTouchScales else s.counterclockwiseMiddleTouchScales).any fun scale =>
            decide (scale ∈ if s.clockwiseMiddleTouchScales.length < s.counterclockwiseMiddleTouchScales.length
            then s.counterclockwiseMiddleTouchScales else s.clockwiseMiddleTouchScales)) = true
          · rw [if_pos hb]; simp [hb]
          · rw [if_neg hb]; simp [hb]
        · rw [if_neg (fun h' => ha h'.2)]
          simp only [true_iff]
          rw [hany]
          rintro ⟨t, h1, h2⟩
          exact ha ⟨List.ne_nil_of_mem h2, List.ne_nil_of_mem h1⟩
    rcases X with - | -
    · have hc : MultisegmentCrosses A B l := by
        by_contra h'; have := hXc.mpr h'; cases this
      simp only [Bool.false_eq_true, and_false, if_false]
      exact ⟨hov, hc⟩
    · have hc := hXc.mp rfl
      simp only [and_true, if_true]
      by_cases ht : s.hasNoTouch = true
      · rw [if_pos ht]
        show seg A B ∩ segsPts l = ∅
        ext p
        simp only [Set.mem_inter_iff, Set.mem_empty_iff_false, iff_false]
        rintro ⟨hp, e, he, hpe⟩
        have hr := relate_sound hAB.ne (hl.1 e he)
        have hone := h.noov.mp hn e he
        have hem : (p : Point) ∈ seg A B ∩ seg e.start e.end := ⟨hp, hpe⟩
        rcases hrel : relateToSegmentEndpoints A B e.start e.end <;> rw [hrel] at hr <;> try exact hr.elim
        · refine not_atMostOne_seg hAB.ne ?_
          have := Set.inter_eq_left.mpr hr.1
          unfold segPts at hone
          rwa [this] at hone
        · refine not_atMostOne_seg (hl.1 e he) ?_
          have := Set.inter_eq_right.mpr hr.1
          unfold segPts at hone
          rwa [this] at hone
        · exact hc (Or.inl ⟨e, he, hr⟩)
        · rw [show seg A B ∩ seg e.start e.end = ∅ from hr] at hem; exact hem
        · refine not_atMostOne_seg hAB.ne ?_
          unfold segPts at hone
          rwa [← show seg A B = seg e.start e.end from hr, Set.inter_self] at hone
        · exact hr.2.2 hone
        · exact (h.touch hn).mp ht e he hr
      · rw [if_neg ht]
        refine ⟨hov, hc, ?_⟩
        rw [h.touch hn] at ht
        push Not at ht
        obtain ⟨e, he, p, hp, -⟩ := ht
        have : p ∈ seg A B ∩ seg e.start e.end := by rw [hp]; rfl
        exact ⟨p, this.1, e, he, this.2⟩
  · have hov : HasOverlap A B l := by
      by_contra h'; exact hn (h.noov.mpr (not_hasOverlap_iff.mp h'))
    have fin : ∀ b : Prop, [Decidable b] → (b ↔ seg A B ⊆ segsPts l) →
        MultisegmentRel (if b then (if s.isSegmentSuperset then .equal else .component)
          else if s.isSegmentSuperset then .composite else .overlap) A B l := by
      intro b _ hb
      by_cases h1 : b
      · rw [if_pos h1]
        by_cases h2 : s.isSegmentSuperset = true
        · rw [if_pos h2]; exact Set.Subset.antisymm (hb.mp h1) (hsup.mp h2)
        · rw [if_neg h2]; exact ⟨hb.mp h1, fun h' => h2 (hsup.mpr h')⟩
      · rw [if_neg h1]
        by_cases h2 : s.isSegmentSuperset = true
        · rw [if_pos h2]; exact ⟨hsup.mp h2, fun h' => h1 (hb.mpr h')⟩
        · rw [if_neg h2]; exact ⟨hov, fun h' => h1 (hb.mpr h'), fun h' => h2 (hsup.mpr h')⟩
    unfold MultiScan.result
    rw [if_neg hn]
    have hcov := h.cover
    rcases hcs : s.components with - | ⟨f, rest⟩
    · rw [hcs] at hcov
      simp only
      exact fin _ (hcov.full_nil hAB).symm
    · rw [hcs] at hcov
      simp only
      refine fin _ ?_
      rw [show (seg A B ⊆ segsPts l) ↔ ∀ p ∈ seg A B, p ∈ segsPts l from Iff.rfl, hcov.full_cons hAB rfl rfl]
      simp only [List.all_eq_true, Bool.or_eq_true, decide_eq_true_iff]

/-- The result of `relate_to_multisegment_segments`. -/
theorem relateToMultisegmentSegments_sound {a b : Point} (hab : a ≠ b) {l : List Segment} (hlen : 2 ≤ l.length)
    (hl : WellJoined l) : MultisegmentRel (relateToMultisegmentSegments a b l) a b l := by
  have main : ∀ A B : Point, A < B →
      MultisegmentRel (match multiScanLoop A B { start := A, «end» := B } l with
        | none => .component
        | some s => s.result) A B l := by
    intro A B hAB
    have hno : NoOverlap ([] ++ l) := ⟨hl.1, hl.2.imp fun h => h.1⟩
    rcases multiScanLoop_spec hAB l [] _ (mInv_init hAB) hno with ⟨s, h1, h2⟩ | ⟨h1, e, he, h2⟩
    · rw [h1]
      exact h2.result_sound hAB hl (by rintro rfl; simp at hlen)
    · rw [h1]
      refine ⟨fun p hp => ⟨e, he, h2 hp⟩, fun hsub => ?_⟩
      -- some other component is not inside
      have hex : ∃ d ∈ l, Apart e d := by
        obtain ⟨l1, l2, rfl⟩ := List.append_of_mem he
        have hp := hl.2
        rw [List.pairwise_append] at hp
        rcases l1 with - | ⟨x, l1⟩
        · rcases l2 with - | ⟨y, l2⟩
          · simp at hlen
          · exact ⟨y, by simp, ((List.pairwise_cons.mp hp.2.1).1 y (by simp)).1⟩
        · refine ⟨x, by simp, ?_⟩
          have := (hp.2.2 x (by simp) e (by simp)).1
          unfold Apart at *; rwa [Set.inter_comm]
      obtain ⟨d, hd, hap⟩ := hex
      have hde : segPts d ⊆ segPts e := fun p hp => h2 (hsub ⟨d, hd, hp⟩)
      unfold Apart at hap
      rw [Set.inter_eq_right.mpr hde] at hap
      exact not_atMostOne_seg (hl.1 d hd) hap
  have hswap : ∀ r, MultisegmentRel r b a l → MultisegmentRel r a b l := by
    intro r
    have e1 : seg b a = seg a b := seg_comm _ _
    have e2 : openSeg b a = openSeg a b := openSeg_comm _ _
    have e3 : HasOverlap b a l ↔ HasOverlap a b l := by unfold HasOverlap; rw [e1]
    have e4 : MultisegmentCrosses b a l ↔ MultisegmentCrosses a b l := by
      unfold MultisegmentCrosses PassesEnds
      simp only [SegRel_swap_first, e2]
      have : ∀ x : Point, area2 b a x = - area2 a b x := by
        intro x; rw [← cr_eq_area2, ← cr_eq_area2, cr_swap12]
      simp only [this, neg_mul_neg]
    cases r <;> simp only [MultisegmentRel, e1, e3, e4] <;> exact id
  unfold relateToMultisegmentSegments
  simp only [Point.ltB_iff]
  by_cases h : b < a
  · simp only [h, if_true]
    exact hswap _ (main b a h)
  · simp only [h, if_false]
    exact main a b (lt_of_le_of_ne (not_lt.mp h) hab)

theorem MultisegmentRel_unique {a b : Point} {l : List Segment} (hab : a ≠ b) (hl : WellJoined l) {r r' : Relation}
    (hne : l ≠ []) (h : MultisegmentRel r a b l) (h' : MultisegmentRel r' a b l) : r = r' := by
  have hab' := not_atMostOne_seg hab
  have hc1 : seg a b ⊆ segsPts l → HasOverlap a b l := by
    intro hs
    by_contra hn
    rw [not_hasOverlap_iff] at hn
    have main : ∀ A B : Point, A < B → seg A B ⊆ segsPts l → ¬ ∀ e ∈ l, AtMostOne (seg A B ∩ segPts e) := by
      intro A B hAB hs hn
      obtain ⟨p, h1, h2, h3, h4⟩ := exists_gap hAB l A B hAB (cr_self1 _ _) (cr_self2 _ _) hn
      obtain ⟨c, hc, hp⟩ := hs ((mem_seg_iff_of_le hAB.le).mpr ⟨h1, h2.le, h3.le⟩)
      exact h4 c hc hp
    rcases lt_or_gt_of_ne hab with h | h
    · exact main a b h hs hn
    · refine main b a h (by rwa [seg_comm]) ?_
      rw [seg_comm b a]; exact hn
  have hc2 : segsPts l ⊆ seg a b → HasOverlap a b l := by
    intro hs
    rcases l with - | ⟨c, l⟩
    · exact absurd rfl hne
    · refine ⟨c, by simp, ?_⟩
      have : segPts c ⊆ seg a b := fun p hp => hs ⟨c, by simp, hp⟩
      rw [Set.inter_eq_right.mpr this]
      exact not_atMostOne_seg (hl.1 c (by simp))
  have hno : seg a b ∩ segsPts l = ∅ → ¬ (seg a b ∩ segsPts l).Nonempty := by
    intro h; rw [h]; simp
  have hne' : HasOverlap a b l → (seg a b ∩ segsPts l).Nonempty := by
    rintro ⟨e, he, hs⟩
    unfold AtMostOne at hs
    push Not at hs
    obtain ⟨p, hp, -⟩ := hs
    exact ⟨p, hp.1, e, he, hp.2⟩
  have hcr : MultisegmentCrosses a b l → (seg a b ∩ segsPts l).Nonempty := by
    rintro (⟨e, he, p, hp, -⟩ | ⟨p, u, w, hp, -, hu, -⟩)
    · have : p ∈ seg a b ∩ seg e.start e.end := by rw [hp]; rfl
      exact ⟨p, this.1, e, he, this.2⟩
    · refine ⟨p, ((mem_openSeg_iff hab).mp hp).1, ?_⟩
      rcases hu with hu | hu
      · exact ⟨_, hu, start_mem_seg _ _⟩
      · exact ⟨_, hu, end_mem_seg _ _⟩
  have q1 : ∀ S T : Set Point, S ⊂ T → S ⊆ T ∧ ¬ T ⊆ S := fun S T h => h
  have q2 : ∀ S T : Set Point, S = T → S ⊆ T ∧ T ⊆ S := fun S T h => ⟨h.le, h.ge⟩
  cases r <;> cases r' <;> simp only [MultisegmentRel] at h h' <;> first | rfl | exact h.elim | exact h'.elim | skip
  all_goals exfalso
  all_goals try have h := q1 _ _ h
  all_goals try have h := q2 _ _ h
  all_goals try have h' := q1 _ _ h'
  all_goals try have h' := q2 _ _ h'
  all_goals grind

end Rene
