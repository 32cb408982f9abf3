import Verif.Lemmas.Box
import Mathlib.Tactic.Tauto

namespace Rene
open Spec

theorem seg_subset_box {a b : Point} {B : Box} (ha : a ∈ boxPts B) (hb : b ∈ boxPts B) :
    seg a b ⊆ boxPts B := by
  rintro p ⟨t, h0, h1, rfl⟩
  rw [mem_boxPts] at *
  simp only [lerp]
  refine ⟨?_, ?_, ?_, ?_⟩ <;> nlinarith

theorem IsTightBox_valid {S : Set Point} {b : Box} (h : IsTightBox S b) : ValidBox b := by
  obtain ⟨h1, ⟨p, hp, e1⟩, ⟨q, hq, e2⟩, ⟨r, hr, e3⟩, ⟨s, hs, e4⟩⟩ := h
  have := h1 hp
  have := h1 hr
  rw [mem_boxPts] at *
  constructor <;> linarith

theorem mem_boundingBox_start (s : Segment) : s.start ∈ boxPts s.boundingBox := by
  rw [mem_boxPts]; simp [Segment.boundingBox]
theorem mem_boundingBox_end (s : Segment) : s.end ∈ boxPts s.boundingBox := by
  rw [mem_boxPts]; simp [Segment.boundingBox]

theorem segPts_subset_boundingBox (s : Segment) : segPts s ⊆ boxPts s.boundingBox :=
  seg_subset_box (mem_boundingBox_start s) (mem_boundingBox_end s)

theorem segment_tight (s : Segment) : IsTightBox (segPts s) s.boundingBox := by
  have hs : s.start ∈ segPts s := start_mem_seg _ _
  have he : s.end ∈ segPts s := end_mem_seg _ _
  refine ⟨segPts_subset_boundingBox s, ?_, ?_, ?_, ?_⟩ <;> simp only [Segment.boundingBox]
  · rcases min_choice s.end.x s.start.x with h | h <;> rw [h]
    exacts [⟨_, he, rfl⟩, ⟨_, hs, rfl⟩]
  · rcases max_choice s.end.x s.start.x with h | h <;> rw [h]
    exacts [⟨_, he, rfl⟩, ⟨_, hs, rfl⟩]
  · rcases min_choice s.end.y s.start.y with h | h <;> rw [h]
    exacts [⟨_, he, rfl⟩, ⟨_, hs, rfl⟩]
  · rcases max_choice s.end.y s.start.y with h | h <;> rw [h]
    exacts [⟨_, he, rfl⟩, ⟨_, hs, rfl⟩]

theorem tight_union {S T : Set Point} {a b : Box} (ha : IsTightBox S a) (hb : IsTightBox T b) :
    IsTightBox (S ∪ T) (mergeBox a b) := by
  obtain ⟨h1, ⟨p, hp, e1⟩, ⟨q, hq, e2⟩, ⟨r, hr, e3⟩, ⟨s, hs, e4⟩⟩ := ha
  obtain ⟨h1', ⟨p', hp', e1'⟩, ⟨q', hq', e2'⟩, ⟨r', hr', e3'⟩, ⟨s', hs', e4'⟩⟩ := hb
  refine ⟨?_, ?_, ?_, ?_, ?_⟩
  · rintro x (hx | hx)
    · have := h1 hx
      rw [mem_boxPts] at this ⊢
      simp only [mergeBox]
      refine ⟨?_, ?_, ?_, ?_⟩ <;> split_ifs <;> linarith
    · have := h1' hx
      rw [mem_boxPts] at this ⊢
      simp only [mergeBox]
      refine ⟨?_, ?_, ?_, ?_⟩ <;> split_ifs <;> linarith
  all_goals simp only [mergeBox]; split_ifs
  exacts [⟨p', Or.inr hp', e1'⟩, ⟨p, Or.inl hp, e1⟩, ⟨q', Or.inr hq', e2'⟩, ⟨q, Or.inl hq, e2⟩,
    ⟨r', Or.inr hr', e3'⟩, ⟨r, Or.inl hr, e3⟩, ⟨s', Or.inr hs', e4'⟩, ⟨s, Or.inl hs, e4⟩]

theorem extendBoxBySegment_eq (acc : Box) (s : Segment) :
    extendBoxBySegment acc s = mergeBox acc s.boundingBox := by
  simp [extendBoxBySegment, mergeBox, Segment.boundingBox, min_comm, max_comm]

theorem foldl_mergeBox_tight {α : Type} (pts : α → Set Point) (box : α → Box)
    (h : ∀ a, IsTightBox (pts a) (box a)) (l : List α) :
    ∀ (S : Set Point) (acc : Box), IsTightBox S acc →
      IsTightBox (S ∪ {p | ∃ a ∈ l, p ∈ pts a}) (l.foldl (fun acc a => mergeBox acc (box a)) acc) := by
  induction l with
  | nil => intro S acc hS; simpa using hS
  | cons a l ih =>
    intro S acc hS
    have := ih (S ∪ pts a) (mergeBox acc (box a)) (tight_union hS (h a))
    simp only [List.foldl_cons]
    convert this using 1
    ext p
    simp only [Set.mem_union, Set.mem_ofPred_eq, List.mem_cons, exists_eq_or_imp]
    tauto

theorem segsPts_cons (s : Segment) (l : List Segment) : segsPts (s :: l) = segPts s ∪ segsPts l := by
  ext p; simp [segsPts]
theorem segsPts_nil : segsPts [] = ∅ := by ext p; simp [segsPts]
theorem segsPts_append (l m : List Segment) : segsPts (l ++ m) = segsPts l ∪ segsPts m := by
  ext p; simp only [segsPts, List.mem_append, Set.mem_union, Set.mem_ofPred_eq, or_and_right, exists_or]

theorem segmentsBoundingBox_tight (s : Segment) (l : List Segment) :
    IsTightBox (segsPts (s :: l)) (segmentsBoundingBox s l) := by
  have h := foldl_mergeBox_tight segPts Segment.boundingBox segment_tight l _ _ (segment_tight s)
  rw [segsPts_cons]
  unfold segmentsBoundingBox
  have e : (fun acc a => mergeBox acc (Segment.boundingBox a)) = extendBoxBySegment := by
    funext acc a; rw [extendBoxBySegment_eq]
  rw [e] at h
  have e2 : s.boundingBox = ⟨min s.start.x s.end.x, max s.start.x s.end.x,
      min s.start.y s.end.y, max s.start.y s.end.y⟩ := by
    simp [Segment.boundingBox, min_comm, max_comm]
  rw [e2] at h
  exact h

theorem multisegment_tight (m : Multisegment) (h : m.segments ≠ []) :
    IsTightBox (segsPts m.segments) m.boundingBox := by
  unfold Multisegment.boundingBox
  rcases hm : m.segments with _ | ⟨s, l⟩
  · exact absurd hm h
  · exact segmentsBoundingBox_tight s l

theorem extendBoxByVertex_eq {acc : Box} (h : ValidBox acc) (v : Point) :
    extendBoxByVertex acc v = mergeBox acc ⟨v.x, v.x, v.y, v.y⟩ := by
  obtain ⟨h1, h2⟩ := h
  simp only [extendBoxByVertex, mergeBox]
  split_ifs <;> first | rfl | (exfalso; linarith)

theorem point_tight (v : Point) : IsTightBox {v} ⟨v.x, v.x, v.y, v.y⟩ := by
  refine ⟨?_, ⟨v, rfl, rfl⟩, ⟨v, rfl, rfl⟩, ⟨v, rfl, rfl⟩, ⟨v, rfl, rfl⟩⟩
  rintro p rfl
  simp [mem_boxPts]

theorem foldl_extend_tight (l : List Point) :
    ∀ (S : Set Point) (acc : Box), IsTightBox S acc →
      IsTightBox (S ∪ {p | p ∈ l}) (l.foldl extendBoxByVertex acc) := by
  induction l with
  | nil => intro S acc hS; simpa using hS
  | cons a l ih =>
    intro S acc hS
    have h1 := tight_union hS (point_tight a)
    rw [← extendBoxByVertex_eq (IsTightBox_valid hS)] at h1
    have := ih _ _ h1
    simp only [List.foldl_cons]
    convert this using 1
    ext p
    simp only [Set.mem_union, Set.mem_ofPred_eq, List.mem_cons, Set.mem_singleton_iff]
    tauto

theorem verticesBoundingBox_tight (v : Point) (l : List Point) :
    IsTightBox {p | p ∈ v :: l} (verticesBoundingBox v l) := by
  have := foldl_extend_tight l _ _ (point_tight v)
  unfold verticesBoundingBox
  convert this using 1
  ext p; simp

theorem mem_consecutive {l : List Point} {s : Segment} (h : s ∈ consecutive l) :
    s.start ∈ l ∧ s.end ∈ l := by
  induction l with
  | nil => simp [consecutive] at h
  | cons a l ih =>
    cases l with
    | nil => simp [consecutive] at h
    | cons b l =>
      simp only [consecutive, List.mem_cons] at h
      rcases h with rfl | h
      · simp
      · have := ih h
        exact ⟨List.mem_cons_of_mem _ this.1, List.mem_cons_of_mem _ this.2⟩

theorem mem_toContourSegments {l : List Point} {s : Segment} (h : s ∈ toContourSegments l) :
    s.start ∈ l ∧ s.end ∈ l := by
  cases l with
  | nil => simp [toContourSegments] at h
  | cons v l =>
    simp only [toContourSegments, List.mem_append, List.mem_singleton] at h
    rcases h with h | rfl
    · exact mem_consecutive h
    · exact ⟨List.getLast_mem _, List.mem_cons_self⟩

theorem start_of_consecutive {l : List Point} : ∀ {a b : Point}, ∀ p ∈ a :: b :: l,
    (∃ s ∈ consecutive (a :: b :: l), s.start = p ∨ s.end = p) := by
  induction l with
  | nil =>
    intro a b p hp
    simp only [List.mem_cons, List.not_mem_nil, or_false] at hp
    exact ⟨⟨a, b⟩, by simp [consecutive], by simp only; tauto⟩
  | cons c l ih =>
    intro a b p hp
    simp only [List.mem_cons] at hp
    rcases hp with rfl | hp
    · exact ⟨⟨p, b⟩, by simp [consecutive], Or.inl rfl⟩
    · obtain ⟨s, hs, h⟩ := ih (a := b) (b := c) p (by simpa using hp)
      exact ⟨s, by rw [consecutive]; exact List.mem_cons_of_mem _ hs, h⟩

theorem vertex_mem_segsPts {l : List Point} {p : Point} (h : p ∈ l) : p ∈ segsPts (toContourSegments l) := by
  match l, h with
  | [v], h =>
    simp only [List.mem_singleton] at h
    subst h
    exact ⟨⟨p, p⟩, by simp [toContourSegments, consecutive], start_mem_seg _ _⟩
  | a :: b :: l, h =>
    obtain ⟨s, hs, hp⟩ := start_of_consecutive p h
    refine ⟨s, by simp only [toContourSegments, List.mem_append]; exact Or.inl hs, ?_⟩
    rcases hp with rfl | rfl
    · exact start_mem_seg _ _
    · exact end_mem_seg _ _

theorem contour_tight (c : Contour) (h : c.vertices ≠ []) :
    IsTightBox (segsPts c.segments) c.boundingBox := by
  unfold Contour.boundingBox Contour.segments
  rcases hm : c.vertices with _ | ⟨v, l⟩
  · exact absurd hm h
  · have ht := verticesBoundingBox_tight v l
    obtain ⟨h1, ⟨p, hp, e1⟩, ⟨q, hq, e2⟩, ⟨r, hr, e3⟩, ⟨s, hs, e4⟩⟩ := ht
    refine ⟨?_, ⟨p, vertex_mem_segsPts hp, e1⟩, ⟨q, vertex_mem_segsPts hq, e2⟩,
      ⟨r, vertex_mem_segsPts hr, e3⟩, ⟨s, vertex_mem_segsPts hs, e4⟩⟩
    rintro x ⟨s, hs, hx⟩
    have := mem_toContourSegments hs
    exact seg_subset_box (h1 this.1) (h1 this.2) hx

end Rene
