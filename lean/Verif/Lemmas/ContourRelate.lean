import Verif.Lemmas.Relating
import Verif.Lemmas.ContourSegments
import Verif.Model.SegmentRelate
import Verif.Spec.SegmentRelation

/-! The scan of `relate_to_contour_segments`. -/

namespace Rene
open Spec

/-- A collinear segment with an end inside of the other one overlaps it. -/
theorem overlap_of_collinear {a b u v : Point} (hab : a ≠ b) (hv : v ∈ openSeg a b) (huv : u ≠ v)
    (hu : cr a b u = 0) : ¬ AtMostOne (seg a b ∩ seg u v) := by
  wlog hlt : a < b generalizing a b
  · rw [seg_comm]
    refine this hab.symm (by rwa [openSeg_comm]) (by rw [cr_swap12, hu, neg_zero]) ?_
    exact lt_of_le_of_ne (not_lt.mp hlt) hab.symm
  · obtain ⟨hv0, hv1, hv2⟩ := (mem_openSeg_iff_of_lt hlt).mp hv
    rcases lt_or_gt_of_ne huv with h | h
    · exact (not_atMostOne_collinear hlt h hu hv0).mpr ⟨hv1, h.trans hv2⟩
    · rw [seg_comm u v]
      exact (not_atMostOne_collinear hlt h hv0 hu).mpr ⟨hv1.trans h, hv2⟩

theorem cr_at_inner {a b v u : Point} {t : ℚ} (hv : v = lerp a b t) : cr v u a = t * cr a b u := by
  subst hv; unfold cr lerp; ring

theorem divides_iff {a b v u w : Point} (hv : v ∈ openSeg a b) (hu : cr a b u ≠ 0) :
    pointVertexLineDividesAngle a v u w = true ↔ cr a b u * cr a b w < 0 := by
  obtain ⟨t, h0, h1, rfl⟩ := hv
  unfold pointVertexLineDividesAngle
  rw [decide_eq_true_iff, orient_eq_iff, cr_swap23 _ w a, cr_at_inner rfl, cr_at_inner rfl]
  constructor
  · rintro (⟨h, -⟩ | h)
    · rcases mul_eq_zero.mp h with h | h
      · exact absurd h h0.ne'
      · exact absurd h hu
    · have : 0 < (t * t) * (-(cr a b u * cr a b w)) := by linarith
      have := (mul_pos_iff_of_pos_left (mul_pos h0 h0)).mp this
      linarith
  · intro h
    right
    have := mul_pos (mul_pos h0 h0) (neg_pos.mpr h)
    linarith

/-- The segments touch. -/
theorem relate_touch {a b : Point} {e : Segment} (hab : a ≠ b) (he : e.start ≠ e.end) :
    relateToSegmentEndpoints a b e.start e.end = .touch ↔ SegRel .touch a b e.start e.end := relate_iff hab he

/-- A vertex which is on the line, and not an end of the segment, on a touched edge which is not on the line. -/
theorem touch_at {a b u v : Point} (hab : a ≠ b) (huv : u ≠ v) (ht : SegRel .touch a b u v)
    (hv : cr a b v = 0) (hu : cr a b u ≠ 0) (hva : a ≠ v) (hvb : v ≠ b) : v ∈ openSeg a b := by
  obtain ⟨p, hp, -⟩ := ht
  have hm : p ∈ seg a b ∩ seg u v := by rw [hp]; rfl
  have : p = v := inter_unique hab huv (Or.inl hu) (mem_seg_iff.mp hm.1).1 (mem_seg_iff.mp hm.2).1 hv (cr_self2 u v)
  rw [mem_openSeg_iff hab]
  exact ⟨this ▸ hm.1, hva.symm, hvb⟩

/-- Collinear segments which touch have a common end. -/
theorem touch_collinear {a b u v : Point} (hab : a ≠ b) (huv : u ≠ v) (ht : SegRel .touch a b u v)
    (hu : cr a b u = 0) (hv : cr a b v = 0) : a = u ∨ a = v ∨ b = u ∨ b = v := by
  obtain ⟨p, hp, hor⟩ := ht
  have hone : AtMostOne (seg a b ∩ seg u v) := by rw [hp]; exact atMostOne_singleton p
  have hm : p ∈ seg a b ∩ seg u v := by rw [hp]; rfl
  by_contra hne
  push Not at hne
  have key : ∀ {a b u v : Point}, a ≠ b → u ≠ v → cr a b u = 0 → cr a b v = 0 →
      AtMostOne (seg a b ∩ seg u v) → v ∈ seg a b → a ≠ v → b ≠ v → False := by
    intro a b u v hab huv hu hv hone hvm h1 h2
    exact overlap_of_collinear hab ((mem_openSeg_iff hab).mpr ⟨hvm, h1.symm, h2.symm⟩) huv hu hone
  obtain ⟨ha, hb⟩ := collinear_symm hab hu hv
  rcases hor with rfl | rfl | rfl | rfl
  · exact key huv hab.symm hb ha (by rwa [Set.inter_comm, seg_comm b p]) hm.2 (Ne.symm hne.1) (Ne.symm hne.2.1)
  · exact key huv hab ha hb (by rwa [Set.inter_comm]) hm.2 (Ne.symm hne.2.2.1) (Ne.symm hne.2.2.2)
  · exact key hab huv.symm hv hu (by rwa [seg_comm v p]) hm.1 hne.1 hne.2.2.1
  · exact key hab huv hu hv hone hm.1 hne.2.1 hne.2.2.2

/-- The test of the loop, for two neighbouring edges which are both touched. -/
theorem passes_iff {a b : Point} {e e' : Segment} (hab : a ≠ b) (he : e.start ≠ e.end) (he' : e'.start ≠ e'.end)
    (hj : e.end = e'.start) :
    (SegRel .touch a b e.start e.end ∧ SegRel .touch a b e'.start e'.end ∧
      (a ≠ e'.start ∧ e'.start ≠ b) ∧ (a ≠ e'.end ∧ e'.end ≠ b) ∧ orient a b e'.start = .collinear ∧
      pointVertexLineDividesAngle a e'.start e.start e'.end = true) ↔ PassesVertex a b e e' := by
  unfold PassesVertex
  rw [← cr_eq_area2, ← cr_eq_area2, orient_collinear]
  constructor
  · rintro ⟨h1, h2, ⟨h3, h4⟩, ⟨h5, h6⟩, h7, h8⟩
    have hw : cr a b e'.end ≠ 0 := by
      intro hw
      rcases touch_collinear hab he' h2 h7 hw with h | h | h | h
      · exact h3 h
      · exact h5 h
      · exact h4 h.symm
      · exact h6 h.symm
    have hv : e'.start ∈ openSeg a b :=
      touch_at hab he'.symm (SegRel_swap_second.mpr h2) h7 hw h3 h4
    have hu : cr a b e.start ≠ 0 := by
      intro hu
      refine overlap_of_collinear hab hv (by rw [← hj]; exact he) hu ?_
      rw [← hj]
      obtain ⟨p, hp, -⟩ := h1
      rw [hp]; exact atMostOne_singleton p
    exact ⟨hv, (divides_iff hv hu).mp h8⟩
  · rintro ⟨hv, hlt⟩
    have hu : cr a b e.start ≠ 0 := fun h => by rw [h] at hlt; simp at hlt
    have hw : cr a b e'.end ≠ 0 := fun h => by rw [h] at hlt; simp at hlt
    have hv' := (mem_openSeg_iff hab).mp hv
    have hvl := (mem_seg_iff.mp hv'.1).1
    refine ⟨⟨e'.start, ?_, by rw [hj]; tauto⟩, ⟨e'.start, ?_, by tauto⟩, ⟨hv'.2.1.symm, hv'.2.2⟩, ⟨?_, ?_⟩, hvl,
      (divides_iff hv hu).mpr hlt⟩
    · exact inter_singleton_of hab he (Or.inl hu) hv'.1 (hj ▸ end_mem_seg _ _)
    · exact inter_singleton_of hab he' (Or.inr hw) hv'.1 (start_mem_seg _ _)
    · rintro rfl; exact hw (cr_self1 _ _)
    · rintro rfl; exact hw (cr_self2 _ _)

/-- The test after the loop. -/
theorem passes_last_iff {a b : Point} {e e' : Segment} (hab : a ≠ b) (he : e.start ≠ e.end)
    (he' : e'.start ≠ e'.end) (hj : e.end = e'.start) (hs : area2 e.start e.end e'.end ≠ 0) :
    (SegRel .touch a b e.start e.end ∧
      (a ≠ e'.start ∧ e'.start ≠ b) ∧ (a ≠ e'.end ∧ e'.end ≠ b) ∧ orient a b e'.start = .collinear ∧
      pointVertexLineDividesAngle a e'.start e.start e'.end = true) ↔ PassesVertex a b e e' := by
  rw [← passes_iff hab he he' hj]
  constructor
  · rintro ⟨h1, ⟨h3, h4⟩, h5, h7, h8⟩
    refine ⟨h1, ?_, ⟨h3, h4⟩, h5, h7, h8⟩
    rw [orient_collinear] at h7
    have hu : cr a b e.start ≠ 0 := by
      intro hu
      apply hs
      rw [← cr_eq_area2, hj]
      have hw : cr e'.start a e'.end = 0 := by
        unfold pointVertexLineDividesAngle at h8
        rw [decide_eq_true_iff] at h8
        have : orient e'.start e.start a = .collinear := by
          rw [orient_collinear]; exact cr_trans hab h7 hu (cr_self1 a b)
        rw [this] at h8
        exact orient_collinear.mp h8.symm
      have h9 : cr e'.start a e.start = 0 := cr_trans hab h7 (cr_self1 a b) hu
      exact cr_trans (Ne.symm h3) h9 (cr_self1 _ _) hw
    have hv : e'.start ∈ openSeg a b := touch_at hab (hj ▸ he) (hj ▸ h1) h7 hu h3 h4
    have hlt := (divides_iff hv hu).mp h8
    exact ((passes_iff hab he he' hj).mpr ⟨hv, by rwa [← cr_eq_area2, ← cr_eq_area2]⟩).2.1
  · rintro ⟨h1, h2, h⟩
    exact ⟨h1, h⟩

/-- Two neighbouring items of a list. -/
def Adjacent (l : List Segment) (e e' : Segment) : Prop := ∃ i, l[i]? = some e ∧ l[i + 1]? = some e'

theorem adjacent_append {l : List Segment} {x e e' : Segment} :
    Adjacent (l ++ [x]) e e' ↔ Adjacent l e e' ∨ (l.getLast? = some e ∧ e' = x) := by
  constructor
  · rintro ⟨i, h1, h2⟩
    have hi : i + 1 < (l ++ [x]).length := (List.getElem?_eq_some_iff.mp h2).1
    simp only [List.length_append, List.length_singleton] at hi
    by_cases h : i + 1 < l.length
    · left
      rw [List.getElem?_append_left (by omega)] at h1
      rw [List.getElem?_append_left h] at h2
      exact ⟨i, h1, h2⟩
    · right
      have hi' : l.length = i + 1 := by omega
      rw [List.getElem?_append_left (by omega)] at h1
      rw [List.getElem?_append_right (by omega), hi'] at h2
      simp only [Nat.sub_self, List.getElem?_cons_zero, Option.some.injEq] at h2
      refine ⟨?_, h2.symm⟩
      rw [List.getLast?_eq_getElem?, hi']
      simpa using h1
  · rintro (⟨i, h1, h2⟩ | ⟨h1, rfl⟩)
    · have hi : i + 1 < l.length := (List.getElem?_eq_some_iff.mp h2).1
      exact ⟨i, by rw [List.getElem?_append_left (by omega)]; exact h1,
        by rw [List.getElem?_append_left (by omega)]; exact h2⟩
    · rw [List.getLast?_eq_getElem?] at h1
      have hi : l.length - 1 < l.length := (List.getElem?_eq_some_iff.mp h1).1
      refine ⟨l.length - 1, by rw [List.getElem?_append_left (by omega)]; exact h1, ?_⟩
      rw [show l.length - 1 + 1 = l.length by omega]
      simp

/-- What the variables of the loop mean after the edges `pre`. -/
structure ScanInv (a b : Point) (pre : List Segment) (s : ContourScan) : Prop where
  none : s.lastTouchedEdgeIndex = none ↔ s.hasNoTouch = true
  touch : s.hasNoTouch = true ↔ ∀ e ∈ pre, ¬ SegRel .touch a b e.start e.end
  lt : ∀ i, s.lastTouchedEdgeIndex = some i → i < pre.length
  start : ∀ i, s.lastTouchedEdgeIndex = some i → ∃ x, s.lastTouchedEdgeStart = some x
  last : ∀ e, pre.getLast? = some e → (SegRel .touch a b e.start e.end ↔
    s.lastTouchedEdgeIndex = some (pre.length - 1))
  lastStart : ∀ e, pre.getLast? = some e → s.lastTouchedEdgeIndex = some (pre.length - 1) →
    s.lastTouchedEdgeStart = some e.start
  cross : s.hasNoCross = true ↔ (∀ e ∈ pre, ¬ SegRel .cross a b e.start e.end) ∧
    ∀ e e', Adjacent pre e e' → ¬ PassesVertex a b e e'

/-- The chain condition: non-degenerate edges, each starting where the previous one ends. -/
def Chain (l : List Segment) : Prop := (∀ e ∈ l, e.start ≠ e.end) ∧ ∀ e e', Adjacent l e e' → e.end = e'.start

theorem Chain.left {l r : List Segment} (h : Chain (l ++ r)) : Chain l := by
  refine ⟨fun e he => h.1 e (by simp [he]), ?_⟩
  rintro e e' ⟨i, h1, h2⟩
  have hi : i + 1 < l.length := (List.getElem?_eq_some_iff.mp h2).1
  exact h.2 e e' ⟨i, by rw [List.getElem?_append_left (by omega)]; exact h1,
    by rw [List.getElem?_append_left (by omega)]; exact h2⟩

theorem ScanInv.step_not_touch {a b : Point} {pre : List Segment} {s : ContourScan} {e : Segment}
    (hab : a ≠ b) (h : ScanInv a b pre s) (hc : Chain (pre ++ [e])) (ht : ¬ SegRel .touch a b e.start e.end) (x : Bool)
    (hx : x = true ↔ s.hasNoCross = true ∧ ¬ SegRel .cross a b e.start e.end) :
    ScanInv a b (pre ++ [e]) { s with hasNoCross := x } := by
  have hlt := h.lt
  refine ⟨h.none, ?_, ?_, h.start, ?_, ?_, ?_⟩
  · show s.hasNoTouch = true ↔ _
    rw [h.touch]
    simp only [List.mem_append, List.mem_singleton]
    constructor
    · rintro h' e' (h1 | rfl)
      · exact h' e' h1
      · exact ht
    · exact fun h' e' h1 => h' e' (Or.inl h1)
  · intro i hi
    have := hlt i hi
    simp; omega
  · intro e' he'
    simp only [List.getLast?_append, List.getLast?_singleton, Option.or_some, Option.getD_some, Option.some_or,
      Option.some.injEq] at he'
    subst he'
    refine ⟨fun h' => absurd h' ht, fun h' => ?_⟩
    have := hlt _ h'
    simp at this
  · intro e' _ h'
    have := hlt _ h'
    simp at this
  · show x = true ↔ _
    rw [hx, h.cross]
    simp only [adjacent_append, List.mem_append, List.mem_singleton]
    constructor
    · rintro ⟨⟨h1, h2⟩, h3⟩
      refine ⟨?_, ?_⟩
      · rintro e' (h' | rfl)
        · exact h1 e' h'
        · exact h3
      · rintro u v (h' | ⟨h', rfl⟩)
        · exact h2 u v h'
        · intro hp
          have hm : u ∈ pre := List.mem_of_getLast? h'
          have := (passes_iff hab (hc.1 u (by simp [hm])) (hc.1 v (by simp))
            (hc.2 u v (adjacent_append.mpr (Or.inr ⟨h', rfl⟩)))).mpr hp
          exact ht this.2.1
    · rintro ⟨h1, h2⟩
      exact ⟨⟨fun e' h' => h1 e' (Or.inl h'), fun u v h' => h2 u v (Or.inl h')⟩, h1 e (Or.inr rfl)⟩

theorem ScanInv.step_touch {a b : Point} {pre : List Segment} {s : ContourScan} {e : Segment}
    (hab : a ≠ b) (h : ScanInv a b pre s) (hc : Chain (pre ++ [e])) (ht : SegRel .touch a b e.start e.end) :
    ∃ s', s.touch a b pre.length e = .ok s' ∧ ScanInv a b (pre ++ [e]) s' := by
  have hnc : ¬ SegRel .cross a b e.start e.end := fun h' => by
    have := SegRel_unique hab (hc.1 e (by simp)) ht h'
    cases this
  have main : ∀ x : Bool, (x = true ↔ s.hasNoCross = true ∧ ∀ u, pre.getLast? = some u → ¬ PassesVertex a b u e) →
      ScanInv a b (pre ++ [e]) ⟨x, false, some pre.length, some e.start⟩ := by
    intro x hx
    refine ⟨by simp, ?_, ?_, by simp, ?_, ?_, ?_⟩
    · simp only [Bool.false_eq_true, false_iff, not_forall, not_not]
      exact ⟨e, by simp, ht⟩
    · intro i hi; simp at hi ⊢; omega
    · intro e' he'
      simp only [List.getLast?_append, List.getLast?_singleton, Option.or_some, Option.getD_some, Option.some_or,
        Option.some.injEq] at he'
      subst he'
      simp [ht]
    · intro e' he' _
      simp only [List.getLast?_append, List.getLast?_singleton, Option.or_some, Option.getD_some, Option.some_or,
        Option.some.injEq] at he'
      rw [he']
    · show x = true ↔ _
      rw [hx, h.cross]
      simp only [adjacent_append, List.mem_append, List.mem_singleton]
      constructor
      · rintro ⟨⟨h1, h2⟩, h3⟩
        refine ⟨?_, ?_⟩
        · rintro e' (h' | rfl)
          · exact h1 e' h'
          · exact hnc
        · rintro u v (h' | ⟨h', rfl⟩)
          · exact h2 u v h'
          · exact h3 u h'
      · rintro ⟨h1, h2⟩
        exact ⟨⟨fun e' h' => h1 e' (Or.inl h'), fun u v h' => h2 u v (Or.inl h')⟩, fun u hu => h2 u e (Or.inr ⟨hu, rfl⟩)⟩
  have hpass : ∀ u, pre.getLast? = some u → (PassesVertex a b u e ↔ s.lastTouchedEdgeIndex = some (pre.length - 1) ∧
      (a ≠ e.start ∧ e.start ≠ b) ∧ (a ≠ e.end ∧ e.end ≠ b) ∧ orient a b e.start = .collinear ∧
      pointVertexLineDividesAngle a e.start u.start e.end = true) := by
    intro u hu
    have hm : u ∈ pre := List.mem_of_getLast? hu
    rw [← passes_iff hab (hc.1 u (by simp [hm])) (hc.1 e (by simp))
      (hc.2 u e (adjacent_append.mpr (Or.inr ⟨hu, rfl⟩))), h.last u hu]
    tauto
  unfold ContourScan.touch
  rcases hT : s.hasNoTouch with - | -
  · simp only [Bool.false_eq_true, if_false]
    rcases hX : s.hasNoCross with - | -
    · refine ⟨⟨false, false, some pre.length, some e.start⟩, by simp [hT, hX, bind, Except.bind, pure, Except.pure], main false ?_⟩
      simp [hX]
    · simp only [if_true]
      obtain ⟨i, hi⟩ : ∃ i, s.lastTouchedEdgeIndex = some i := by
        rw [← Option.ne_none_iff_exists']
        intro h'
        rw [h.none, hT] at h'; cases h'
      obtain ⟨x, hxs⟩ := h.start i hi
      rw [hi, hxs]
      have hil := h.lt i hi
      simp only
      have hu : ∃ u, pre.getLast? = some u := by
        rcases hp : pre.getLast? with - | u
        · rw [List.getLast?_eq_none_iff] at hp; subst hp; simp at hil
        · exact ⟨u, rfl⟩
      obtain ⟨u, hu⟩ := hu
      split
      · next hcnd =>
        have hi' : i = pre.length - 1 := by omega
        subst hi'
        have hx := h.lastStart u hu hi
        rw [hxs, Option.some.injEq] at hx
        subst hx
        have hp : PassesVertex a b u e := (hpass u hu).mpr ⟨hi, hcnd.2⟩
        refine ⟨⟨false, false, some pre.length, some e.start⟩, by simp [hT, bind, Except.bind, pure, Except.pure], main false ?_⟩
        simp only [Bool.false_eq_true, false_iff, not_and, not_forall, not_not]
        exact fun _ => ⟨u, hu, hp⟩
      · next hcnd =>
        refine ⟨⟨true, false, some pre.length, some e.start⟩, by simp [hT, hX, bind, Except.bind, pure, Except.pure], main true ?_⟩
        simp only [true_iff]
        refine ⟨hX, fun u' hu' hp => hcnd ?_⟩
        rw [hu, Option.some.injEq] at hu'
        subst hu'
        have := (hpass u hu).mp hp
        rw [hi, Option.some.injEq] at this
        have hx := h.lastStart u hu (by rw [hi, this.1])
        rw [hxs, Option.some.injEq] at hx
        subst hx
        exact ⟨by omega, this.2⟩
  · simp only [if_true]
    refine ⟨⟨s.hasNoCross, false, some pre.length, some e.start⟩, by simp [bind, Except.bind, pure, Except.pure], main _ ?_⟩
    refine ⟨fun h' => ⟨h', fun u hu hp => ?_⟩, fun h' => h'.1⟩
    have := (hpass u hu).mp hp
    have h1 := h.none.mpr hT
    rw [h1] at this
    cases this.1

theorem contourScanLoop_spec {a b : Point} (hab : a ≠ b) : ∀ (rest pre : List Segment) (s : ContourScan),
    ScanInv a b pre s → Chain (pre ++ rest) →
    (∃ s', contourScanLoop a b pre.length s rest = .ok (.inr s') ∧ ScanInv a b (pre ++ rest) s' ∧
      ∀ e ∈ rest, AtMostOne (seg a b ∩ segPts e)) ∨
    (contourScanLoop a b pre.length s rest = .ok (.inl .component) ∧ ∃ e ∈ rest, seg a b ⊆ segPts e) ∨
    (contourScanLoop a b pre.length s rest = .ok (.inl .overlap) ∧
      ∃ e ∈ rest, ¬ AtMostOne (seg a b ∩ segPts e) ∧ ¬ seg a b ⊆ segPts e) := by
  intro rest
  induction rest with
  | nil =>
    intro pre s h _
    exact Or.inl ⟨s, rfl, by simpa using h, by simp⟩
  | cons e rest ih =>
    intro pre s h hc
    have hc' : Chain (pre ++ [e]) := by
      have : pre ++ e :: rest = (pre ++ [e]) ++ rest := by simp
      rw [this] at hc
      exact hc.left
    have hee : e.start ≠ e.end := hc'.1 e (by simp)
    have hr := relate_sound hab hee
    have hone : ∀ r, SegRel r a b e.start e.end → r = .touch ∨ r = .cross ∨ r = .disjoint →
        AtMostOne (seg a b ∩ segPts e) := by
      intro r hr h'
      rcases h' with rfl | rfl | rfl
      · obtain ⟨p, hp, -⟩ := hr; unfold segPts; rw [hp]; exact atMostOne_singleton p
      · obtain ⟨p, hp, -⟩ := hr; unfold segPts; rw [hp]; exact atMostOne_singleton p
      · unfold segPts; rw [show seg a b ∩ seg e.start e.end = ∅ from hr]; intro p hp; exact absurd hp (by simp)
    have next : ∀ s', ScanInv a b (pre ++ [e]) s' → AtMostOne (seg a b ∩ segPts e) →
        contourScanLoop a b pre.length s (e :: rest) = contourScanLoop a b (pre.length + 1) s' rest →
        (∃ s', contourScanLoop a b pre.length s (e :: rest) = .ok (.inr s') ∧ ScanInv a b (pre ++ e :: rest) s' ∧
          ∀ x ∈ e :: rest, AtMostOne (seg a b ∩ segPts x)) ∨
        (contourScanLoop a b pre.length s (e :: rest) = .ok (.inl .component) ∧ ∃ x ∈ e :: rest, seg a b ⊆ segPts x) ∨
        (contourScanLoop a b pre.length s (e :: rest) = .ok (.inl .overlap) ∧
          ∃ x ∈ e :: rest, ¬ AtMostOne (seg a b ∩ segPts x) ∧ ¬ seg a b ⊆ segPts x) := by
      intro s' hs' h1 heq
      have e1 : pre ++ e :: rest = (pre ++ [e]) ++ rest := by simp
      have := ih (pre ++ [e]) s' hs' (by rw [← e1]; exact hc)
      rw [List.length_append, List.length_singleton, ← heq, ← e1] at this
      rcases this with ⟨s'', h2, h3, h4⟩ | ⟨h2, x, hx, h3⟩ | ⟨h2, x, hx, h3⟩
      · exact Or.inl ⟨s'', h2, h3, by
          intro x hx
          rcases List.mem_cons.mp hx with rfl | hx
          · exact h1
          · exact h4 x hx⟩
      · exact Or.inr (Or.inl ⟨h2, x, List.mem_cons_of_mem _ hx, h3⟩)
      · exact Or.inr (Or.inr ⟨h2, x, List.mem_cons_of_mem _ hx, h3⟩)
    rcases hrel : relateToSegmentEndpoints a b e.start e.end <;> rw [hrel] at hr <;> try exact hr.elim
    · refine Or.inr (Or.inl ⟨by rw [contourScanLoop, hrel]; rfl, e, by simp, hr.1⟩)
    · refine Or.inr (Or.inr ⟨by rw [contourScanLoop, hrel]; rfl, e, by simp, ?_, hr.2⟩)
      unfold segPts
      rw [Set.inter_eq_right.mpr hr.1]
      exact not_atMostOne_seg hee
    · have hnt : ¬ SegRel .touch a b e.start e.end := fun h' => by
        have := SegRel_unique hab hee hr h'; cases this
      refine next _ (h.step_not_touch hab hc' hnt false ?_) (hone _ hr (by simp)) (by rw [contourScanLoop, hrel])
      simp only [Bool.false_eq_true, false_iff, not_and, not_not]
      exact fun _ => hr
    · have hnt : ¬ SegRel .touch a b e.start e.end := fun h' => by
        have := SegRel_unique hab hee hr h'; cases this
      have hnc : ¬ SegRel .cross a b e.start e.end := fun h' => by
        have := SegRel_unique hab hee hr h'; cases this
      exact next s (h.step_not_touch hab hc' hnt s.hasNoCross (by simp [hnc])) (hone _ hr (by simp))
        (by rw [contourScanLoop, hrel])
    · refine Or.inr (Or.inl ⟨by rw [contourScanLoop, hrel]; rfl, e, by simp, (hr : seg a b = _).le⟩)
    · refine Or.inr (Or.inr ⟨by rw [contourScanLoop, hrel]; rfl, e, by simp, hr.2.2, hr.1⟩)
    · obtain ⟨s', h1, h2⟩ := h.step_touch hab hc' hr
      exact next s' h2 (hone _ hr (by simp)) (by rw [contourScanLoop, hrel, h1]; rfl)

theorem nextEdge_iff {edges : List Segment} (hne : edges ≠ []) {e e' : Segment} :
    NextEdge edges e e' ↔ Adjacent edges e e' ∨ (edges.getLast? = some e ∧ edges.head? = some e') := by
  have hn : 0 < edges.length := List.length_pos_iff.mpr hne
  constructor
  · rintro ⟨i, h1, h2⟩
    have hi : i < edges.length := (List.getElem?_eq_some_iff.mp h1).1
    by_cases h : i + 1 < edges.length
    · left
      rw [Nat.mod_eq_of_lt h] at h2
      exact ⟨i, h1, h2⟩
    · right
      have hi' : i + 1 = edges.length := by omega
      rw [hi', Nat.mod_self] at h2
      rw [List.getLast?_eq_getElem?, List.head?_eq_getElem?]
      exact ⟨by rw [← hi']; simpa using h1, h2⟩
  · rintro (⟨i, h1, h2⟩ | ⟨h1, h2⟩)
    · have hi : i + 1 < edges.length := (List.getElem?_eq_some_iff.mp h2).1
      exact ⟨i, h1, by rw [Nat.mod_eq_of_lt hi]; exact h2⟩
    · rw [List.getLast?_eq_getElem?] at h1
      rw [List.head?_eq_getElem?] at h2
      exact ⟨edges.length - 1, h1, by rw [show edges.length - 1 + 1 = edges.length by omega, Nat.mod_self]; exact h2⟩

theorem not_hasOverlap_iff {a b : Point} {edges : List Segment} :
    ¬ HasOverlap a b edges ↔ ∀ e ∈ edges, AtMostOne (seg a b ∩ segPts e) := by
  unfold HasOverlap; push Not; rfl

/-- The result of `relate_to_contour_segments` on a closed chain. -/
theorem relateToContourSegments_sound {a b : Point} (hab : a ≠ b) {edges : List Segment} (hne : edges ≠ [])
    (hno : NoOverlap edges) (hnext : ∀ e e', NextEdge edges e e' → e.end = e'.start) (hs : NoStraightAngle edges) :
    ∃ r, relateToContourSegments a b edges = .ok r ∧ ContourRel r a b edges := by
  have hc : Chain ([] ++ edges) :=
    ⟨hno.1, fun e e' h => hnext e e' ((nextEdge_iff hne).mpr (Or.inl h))⟩
  have h0 : ScanInv a b [] {} := by
    refine ⟨by simp, by simp, by simp, by simp, by simp, by simp, ?_⟩
    simp [Adjacent]
  rcases hed : edges with - | ⟨first, tl⟩
  · exact absurd hed hne
  rw [← hed]
  have hfirst : edges.head? = some first := by rw [hed]; rfl
  have unfoldd : relateToContourSegments a b edges = (do
    match ← contourScanLoop a b 0 {} edges with
    | .inl r => pure r
    | .inr s =>
      let hasNoCross ←
        if s.hasNoTouch = false ∧ s.hasNoCross ∧ s.lastTouchedEdgeIndex = some (edges.length - 1) ∧
            (a ≠ first.start ∧ first.start ≠ b) ∧ (a ≠ first.end ∧ first.end ≠ b) ∧
            orient a b first.start = .collinear then
          match s.lastTouchedEdgeStart with
          | none => throw .assertionError
          | some lastStart =>
            pure (if pointVertexLineDividesAngle a first.start lastStart first.end then false else s.hasNoCross)
        else pure s.hasNoCross
      pure (if hasNoCross then (if s.hasNoTouch then .disjoint else .touch) else .cross)) := by
    rw [hed]; rfl
  rcases contourScanLoop_spec hab edges [] {} h0 hc with ⟨s, h1, h2, h3⟩ | ⟨h1, e, he, h2⟩ | ⟨h1, e, he, h2, h3⟩
  · rw [List.nil_append] at h2
    rw [List.length_nil] at h1
    obtain ⟨last, hlast⟩ : ∃ u, edges.getLast? = some u := by
      rcases hp : edges.getLast? with - | u
      · rw [List.getLast?_eq_none_iff] at hp; exact absurd hp hne
      · exact ⟨u, rfl⟩
    have hn : NextEdge edges last first := (nextEdge_iff hne).mpr (Or.inr ⟨hlast, hfirst⟩)
    have hlm : last ∈ edges := List.mem_of_getLast? hlast
    have hfm : first ∈ edges := List.mem_of_mem_head? hfirst
    have hpl := passes_last_iff hab (hno.1 last hlm) (hno.1 first hfm) (hnext _ _ hn) (hs _ _ hn)
    have hcr : ContourCrosses a b edges ↔ ¬ (s.hasNoCross = true) ∨ PassesVertex a b last first := by
      unfold ContourCrosses
      rw [h2.cross]
      simp only [nextEdge_iff hne]
      constructor
      · rintro (⟨e, he, h⟩ | ⟨e, e', h | ⟨h, h'⟩, h4⟩)
        · left; rintro ⟨h5, -⟩; exact h5 e he h
        · left; rintro ⟨-, h5⟩; exact h5 e e' h h4
        · rw [hlast] at h; rw [hfirst] at h'
          cases h; cases h'; exact Or.inr h4
      · rintro (h | h)
        · by_cases h5 : ∃ e ∈ edges, SegRel .cross a b e.start e.end
          · exact Or.inl h5
          · right
            by_contra h6
            apply h
            refine ⟨fun e he h7 => h5 ⟨e, he, h7⟩, fun e e' h7 h8 => h6 ⟨e, e', Or.inl h7, h8⟩⟩
        · exact Or.inr ⟨last, first, Or.inr ⟨hlast, hfirst⟩, h⟩
    have hnov := not_hasOverlap_iff.mpr h3
    -- the value of `hasNoCross` after the last test
    have hval : ∃ x : Bool, relateToContourSegments a b edges =
        .ok (if x then (if s.hasNoTouch then .disjoint else .touch) else .cross) ∧ (x = false ↔ ContourCrosses a b edges) := by
      rw [unfoldd, h1]
      by_cases hcnd : s.hasNoTouch = false ∧ s.hasNoCross ∧ s.lastTouchedEdgeIndex = some (edges.length - 1) ∧
            (a ≠ first.start ∧ first.start ≠ b) ∧ (a ≠ first.end ∧ first.end ≠ b) ∧
            orient a b first.start = .collinear
      · have hls := h2.lastStart last hlast hcnd.2.2.1
        have ht := (h2.last last hlast).mpr hcnd.2.2.1
        refine ⟨if pointVertexLineDividesAngle a first.start last.start first.end then false else s.hasNoCross, ?_, ?_⟩
        · simp only [bind, Except.bind]
          rw [if_pos hcnd, hls]
          rfl
        · rw [hcr, ← hpl]
          rw [hcnd.2.1]
          by_cases hd : pointVertexLineDividesAngle a first.start last.start first.end = true
          · rw [if_pos hd]
            simp only [true_iff]
            right
            exact ⟨ht, hcnd.2.2.2.1, hcnd.2.2.2.2.1, hcnd.2.2.2.2.2, hd⟩
          · rw [if_neg hd]
            simp only [Bool.true_eq_false, not_true_eq_false, false_or, false_iff]
            exact fun h => hd h.2.2.2.2
      · refine ⟨s.hasNoCross, ?_, ?_⟩
        · simp only [bind, Except.bind]
          rw [if_neg hcnd]
          rfl
        · rw [hcr, ← hpl]
          constructor
          · intro h; left; rw [h]; simp
          · rintro (h | h)
            · simpa using h
            · by_contra hx
              have hx' : s.hasNoCross = true := by simpa using hx
              refine hcnd ⟨?_, hx', (h2.last last hlast).mp h.1, h.2.1, h.2.2.1, h.2.2.2.1⟩
              by_contra ht
              have ht' : s.hasNoTouch = true := by simpa using ht
              exact h2.touch.mp ht' last hlm h.1
    obtain ⟨x, hx, hxc⟩ := hval
    refine ⟨_, hx, ?_⟩
    rcases x with - | -
    · exact ⟨hnov, hxc.mp rfl⟩
    · have hxc' : ¬ ContourCrosses a b edges := fun h => by have := hxc.mpr h; cases this
      simp only [if_true]
      rcases ht : s.hasNoTouch with - | -
      · simp only [Bool.false_eq_true, if_false]
        refine ⟨hnov, hxc', ?_⟩
        have : ¬ ∀ e ∈ edges, ¬ SegRel .touch a b e.start e.end := by
          rw [← h2.touch, ht]; simp
        push Not at this
        obtain ⟨e, he, p, hp, -⟩ := this
        have : p ∈ seg a b ∩ seg e.start e.end := by rw [hp]; rfl
        exact ⟨p, this.1, e, he, this.2⟩
      · simp only [if_true]
        show seg a b ∩ segsPts edges = ∅
        ext p
        simp only [Set.mem_inter_iff, Set.mem_empty_iff_false, iff_false]
        rintro ⟨hp, e, he, hpe⟩
        have hr := relate_sound hab (hno.1 e he)
        have hone := h3 e he
        have hem : (p : Point) ∈ seg a b ∩ seg e.start e.end := ⟨hp, hpe⟩
        rcases hrel : relateToSegmentEndpoints a b e.start e.end <;> rw [hrel] at hr <;> try exact hr.elim
        · refine not_atMostOne_seg hab ?_
          have := Set.inter_eq_left.mpr hr.1
          unfold segPts at hone
          rwa [this] at hone
        · refine not_atMostOne_seg (hno.1 e he) ?_
          have := Set.inter_eq_right.mpr hr.1
          unfold segPts at hone
          rwa [this] at hone
        · exact hxc' (Or.inl ⟨e, he, hr⟩)
        · rw [show seg a b ∩ seg e.start e.end = ∅ from hr] at hem; exact hem
        · refine not_atMostOne_seg hab ?_
          unfold segPts at hone
          rwa [← show seg a b = seg e.start e.end from hr, Set.inter_self] at hone
        · exact hr.2.2 hone
        · exact h2.touch.mp ht e he hr
  · rw [List.length_nil] at h1
    exact ⟨.component, by rw [unfoldd, h1]; rfl, e, he, h2⟩
  · rw [List.length_nil] at h1
    refine ⟨.overlap, by rw [unfoldd, h1]; rfl, ⟨e, he, h2⟩, ?_⟩
    rintro ⟨e', he', h4⟩
    by_cases hee : e' = e
    · subst hee; exact h3 h4
    · apply h2
      intro p hp q hq
      have : Apart e' e := by
        have hsym : Std.Symm Apart := ⟨fun x y h => by unfold Apart at *; rwa [Set.inter_comm]⟩
        exact List.Pairwise.forall hno.2 he' he hee
      exact this p ⟨h4 hp.1, hp.2⟩ q ⟨h4 hq.1, hq.2⟩

/-- Different relations exclude each other. -/
theorem ContourRel_unique {a b : Point} (hab : a ≠ b) {edges : List Segment} {r r' : Relation}
    (h : ContourRel r a b edges) (h' : ContourRel r' a b edges) : r = r' := by
  have hov : (∃ e ∈ edges, seg a b ⊆ segPts e) → HasOverlap a b edges := by
    rintro ⟨e, he, hs⟩
    refine ⟨e, he, ?_⟩
    rw [Set.inter_eq_left.mpr hs]
    exact not_atMostOne_seg hab
  have hno : seg a b ∩ segsPts edges = ∅ → ¬ (seg a b ∩ segsPts edges).Nonempty := by
    intro h; rw [h]; simp
  have hne : HasOverlap a b edges → (seg a b ∩ segsPts edges).Nonempty := by
    rintro ⟨e, he, hs⟩
    unfold AtMostOne at hs
    push Not at hs
    obtain ⟨p, hp, -⟩ := hs
    exact ⟨p, hp.1, e, he, hp.2⟩
  have hcr : ContourCrosses a b edges → (seg a b ∩ segsPts edges).Nonempty := by
    rintro (⟨e, he, p, hp, -⟩ | ⟨e, e', ⟨i, -, hn⟩, hp, -⟩)
    · have : p ∈ seg a b ∩ seg e.start e.end := by rw [hp]; rfl
      exact ⟨p, this.1, e, he, this.2⟩
    · exact ⟨e'.start, ((mem_openSeg_iff hab).mp hp).1, e', List.mem_of_getElem? hn, start_mem_seg _ _⟩
  cases r <;> cases r' <;> simp only [ContourRel] at h h' <;> first | rfl | exact h.elim | exact h'.elim | skip
  all_goals exfalso; grind

end Rene
