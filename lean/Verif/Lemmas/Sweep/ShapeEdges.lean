import Verif.Lemmas.Sweep.Quadrant
import Verif.Model.Mixed

/-! Parities and directions for all the edges of valid shapes. -/

namespace Rene.Sweep
open Rene Spec

/-! ### Contours -/

theorem lo_hi_reverse (s : Segment) : lo s.reverse = lo s ∧ hi s.reverse = hi s := by
  have key : ∀ a b : Point, toSortedPair a b = toSortedPair b a := by
    intro a b
    unfold toSortedPair
    rcases lt_trichotomy a b with h | h | h
    · rw [if_pos (Point.ltB_iff.mpr h), if_neg fun k => lt_asymm h (Point.ltB_iff.mp k)]
    · rw [h]
    · rw [if_pos (Point.ltB_iff.mpr h), if_neg fun k => lt_asymm h (Point.ltB_iff.mp k)]
  unfold lo hi Segment.reverse
  simp only
  rw [key s.end s.start]
  exact ⟨rfl, rfl⟩

theorem below_reverse (ε : ℚ) (s : Segment) (p : Point) : below ε s.reverse p = below ε s p := by
  unfold below; rw [(lo_hi_reverse s).1, (lo_hi_reverse s).2]

theorem downParity_reverse (ε : ℚ) (p : Point) (l : List Segment) :
    downParity ε p (l.map Segment.reverse) = downParity ε p l := by
  unfold downParity
  induction l with
  | nil => rfl
  | cons s l ih => rw [List.map_cons, xorSum, xorSum, ih, below_reverse]

theorem noded_reverse {s t : Segment} (h : Noded s t) : Noded s.reverse t.reverse := by
  obtain ⟨h1, h2⟩ := h
  refine ⟨?_, fun p hp hp' => ?_⟩
  · unfold Apart at *; rw [segPts_reverse', segPts_reverse']; exact h1
  · rw [segPts_reverse'] at hp hp'
    obtain ⟨k1, k2⟩ := h2 p hp hp'
    exact ⟨k1.symm, k2.symm⟩

theorem fullyNoded_reverse {l : List Segment} (h : FullyNoded l) : FullyNoded (l.map Segment.reverse) := by
  refine ⟨fun s hs => ?_, ?_⟩
  · obtain ⟨t, ht, rfl⟩ := List.mem_map.mp hs
    exact (h.1 t ht).symm
  · exact h.2.map _ fun _ _ => noded_reverse

theorem fullyNoded_perm {l l' : List Segment} (h : l.Perm l') (hf : FullyNoded l) : FullyNoded l' :=
  ⟨fun s hs => hf.1 s (h.mem_iff.mpr hs), (h.pairwise_iff (fun k => noded_symm k)).mp hf.2⟩

/-- A list of edges with the same points, up to order and direction. -/
def SameEdges (l l' : List Segment) : Prop := l.Perm l' ∨ l.Perm (l'.map Segment.reverse)

theorem SameEdges.downParity {l l' : List Segment} (h : SameEdges l l') (ε : ℚ) (p : Point) :
    downParity ε p l = downParity ε p l' := by
  rcases h with h | h
  · exact xorSum_perm h
  · rw [← downParity_reverse ε p l']; exact xorSum_perm h

theorem SameEdges.segsPts {l l' : List Segment} (h : SameEdges l l') : segsPts l = segsPts l' := by
  rcases h with h | h
  · exact segsPts_perm h
  · rw [segsPts_perm h, segsPts_map_reverse]

theorem SameEdges.lo_hi {l l' : List Segment} (h : SameEdges l l') {s : Segment} (hs : s ∈ l) :
    ∃ t ∈ l', lo s = lo t ∧ hi s = hi t := by
  rcases h with h | h
  · exact ⟨s, h.mem_iff.mp hs, rfl, rfl⟩
  · obtain ⟨t, ht, rfl⟩ := List.mem_map.mp (h.mem_iff.mp hs)
    exact ⟨t, ht, (lo_hi_reverse t).1, (lo_hi_reverse t).2⟩

theorem rotateSequence_rot (vs : List Point) : rotateSequence vs ~r vs.reverse := by
  cases vs with
  | nil => simp [rotateSequence]
  | cons a rest =>
    simp only [rotateSequence, List.reverse_cons]
    exact (rot_swap a rest.reverse []).symm

/-- Some shear for a contour. -/
theorem exists_gen (V : Finset Point) : ∃ ε : ℚ, Gen ε (· ∈ V) := by
  obtain ⟨ε, e0, he⟩ := exists_eps (V ×ˢ V)
  exact ⟨ε, fun u hu v hv huv => he ε e0 le_rfl (u, v) (Finset.mem_product.mpr ⟨hu, hv⟩) huv⟩

theorem simple_not_collinear {c : Contour} (hs : SimpleContour c) : c.orientation ≠ .collinear := by
  obtain ⟨ε, hg⟩ := exists_gen c.vertices.toFinset
  exact (contour_parity (ε := ε) hs fun u hu v hv => hg u (List.mem_toFinset.mpr hu) v (List.mem_toFinset.mpr hv)).1

/-- The oriented edges of a simple contour. -/
theorem oriented_edges {c : Contour} (hs : SimpleContour c) {t : Orientation} (ht : t ≠ .collinear) :
    ∃ ws : List Point, toOrientedSegments c.vertices t = toContourSegments ws ∧ SimpleContour ⟨ws⟩ ∧
      (⟨ws⟩ : Contour).orientation = t ∧ (∀ v, v ∈ ws ↔ v ∈ c.vertices) ∧
      SameEdges (toContourSegments ws) c.segments := by
  obtain ⟨h3, hn, hf⟩ := hs
  have nc := simple_not_collinear ⟨h3, hn, hf⟩
  unfold toOrientedSegments
  by_cases hc : toContourOrientation c.vertices (toArgMin c.vertices) = t
  · rw [if_pos hc]
    exact ⟨c.vertices, rfl, ⟨h3, hn, hf⟩, hc, fun _ => Iff.rfl, Or.inl (List.Perm.refl _)⟩
  · rw [if_neg hc]
    have hrot := rotateSequence_rot c.vertices
    have hl : (rotateSequence c.vertices).length = c.vertices.length := by
      rw [hrot.perm.length_eq, List.length_reverse]
    have o := (C25_orientation ⟨rotateSequence c.vertices⟩ c (by rw [hl]; exact h3) hn).2 hrot
    have hp : (toContourSegments (rotateSequence c.vertices)).Perm ((toContourSegments c.vertices).map Segment.reverse) :=
      (toContourSegments_rotated hrot).trans (toContourSegments_reverse c.vertices)
    refine ⟨rotateSequence c.vertices, rfl, ⟨by rw [hl]; exact h3, ?_, ?_⟩, ?_, fun v => ?_, Or.inr hp⟩
    · exact hrot.perm.nodup_iff.mpr (List.nodup_reverse.mpr hn)
    · exact fullyNoded_perm hp.symm (fullyNoded_reverse hf)
    · have hc' : c.orientation ≠ t := hc
      generalize (⟨rotateSequence c.vertices⟩ : Contour).orientation = y at *
      generalize c.orientation = x at *
      cases x <;> cases t <;> cases y <;> simp_all
    · rw [hrot.perm.mem_iff, List.mem_reverse]

/-! ### Lists of shapes -/

/-- Exclusive disjunction over a list. -/
def xorAll {α : Type} (g : α → Bool) : List α → Bool
  | [] => false
  | x :: l => g x ^^ xorAll g l

theorem xorAll_congr {α : Type} {g h : α → Bool} {l : List α} (H : ∀ x ∈ l, g x = h x) : xorAll g l = xorAll h l := by
  induction l with
  | nil => rfl
  | cons x l ih => rw [xorAll, xorAll, H x (by simp), ih fun y hy => H y (by simp [hy])]

theorem xorAll_false {α : Type} {g : α → Bool} {l : List α} (H : ∀ x ∈ l, g x = false) : xorAll g l = false := by
  induction l with
  | nil => rfl
  | cons x l ih => rw [xorAll, H x (by simp), ih fun y hy => H y (by simp [hy])]; rfl

theorem xorAll_append {α : Type} (g : α → Bool) (l l' : List α) :
    xorAll g (l ++ l') = (xorAll g l ^^ xorAll g l') := by
  induction l with
  | nil => simp [xorAll]
  | cons x l ih => simp only [List.cons_append, xorAll, ih, Bool.xor_assoc]

/-- Where at most one is true. -/
theorem xorAll_any {α : Type} {g : α → Bool} {l : List α}
    (H : l.Pairwise fun x y => ¬ (g x = true ∧ g y = true)) : xorAll g l = true ↔ ∃ x ∈ l, g x = true := by
  induction l with
  | nil => simp [xorAll]
  | cons x l ih =>
    rw [List.pairwise_cons] at H
    rw [xorAll]
    by_cases hx : g x = true
    · rw [hx, xorAll_false fun y hy => bool_false fun k => H.1 y hy ⟨hx, k⟩]
      simp [hx]
    · rw [bool_false hx, Bool.false_xor, ih H.2]
      simp [bool_false hx]

theorem xorSum_flatMap {α : Type} (g : Segment → Bool) (F : α → List Segment) (l : List α) :
    xorSum g (l.flatMap F) = xorAll (fun x => xorSum g (F x)) l := by
  induction l with
  | nil => rfl
  | cons x l ih => rw [List.flatMap_cons, xorSum_append, xorAll, ih]

theorem downParity_flatMap {α : Type} (ε : ℚ) (p : Point) (F : α → List Segment) (l : List α) :
    downParity ε p (l.flatMap F) = xorAll (fun x => downParity ε p (F x)) l := xorSum_flatMap _ _ _

/-- The edges of a shape with the points `R` inside: what the mixed sweep needs. -/
structure Edges (ε : ℚ) (l : List Segment) (R : Set Point) : Prop where
  inc : ∀ s ∈ l, Xe ε (lo s) < Xe ε (hi s)
  closed : ∀ f : Point → Bool, xorSum (fun e => f e.start ^^ f e.end) l = false
  dir : ∀ j ∈ l, ∀ z ∈ openSeg j.start j.end, (∀ s ∈ l, s ≠ j → z ∉ segPts s) →
    goesUp j = !downParity ε z l
  off : ∀ z, z ∉ segsPts l → (downParity ε z l = true ↔ z ∈ R)

theorem ne_of_inc {ε : ℚ} {s : Segment} (h : Xe ε (lo s) < Xe ε (hi s)) : s.start ≠ s.end := by
  intro e
  rcases lo_hi_or s with ⟨e1, e2⟩ | ⟨e1, e2⟩ <;> rw [e1, e2, e] at h <;> exact lt_irrefl _ h

/-- The oriented edges of one contour. -/
theorem oriented_parity {ε : ℚ} {c : Contour} (hs : SimpleContour c) (hg : Gen ε (· ∈ c.vertices))
    {t : Orientation} (ht : t ≠ .collinear) :
    (∀ s ∈ toOrientedSegments c.vertices t, Xe ε (lo s) < Xe ε (hi s)) ∧
    (∀ f : Point → Bool, xorSum (fun e => f e.start ^^ f e.end) (toOrientedSegments c.vertices t) = false) ∧
    (∀ e ∈ toOrientedSegments c.vertices t, ∀ z ∈ openSeg e.start e.end,
      (goesUp e ^^ downParity ε z (toOrientedSegments c.vertices t)) = decide (t = .counterclockwise)) ∧
    (∀ z, z ∉ contourPts c → (downParity ε z (toOrientedSegments c.vertices t) =
      decide (locatePointInRegion c z = .interior))) ∧
    segsPts (toOrientedSegments c.vertices t) = contourPts c := by
  obtain ⟨ws, e, h1, h2, h3, h4⟩ := oriented_edges hs ht
  rw [e]
  have hg' : Gen ε (· ∈ ws) := fun u hu v hv => hg u ((h3 u).mp hu) v ((h3 v).mp hv)
  refine ⟨fun s hs => contour_Xe hg' h1.2.2 hs, fun f => contour_xor f ws, fun s hs' z hz => ?_, fun z hz => ?_, ?_⟩
  · have := (contour_parity (ε := ε) h1 hg').2 s hs' z hz
    rw [h2] at this; exact this
  · rw [h4.downParity]
    exact downParity_locate (fun s hs' => contour_Xe hg hs.2.2 hs') hz
  · exact h4.segsPts

theorem edges_flatMap_ne {α : Type} {F : α → List Segment} {A B : List α} {x : α}
    (hn : ((A ++ x :: B).flatMap F).Nodup) {j : Segment} (hj : j ∈ F x) {y : α} (hy : y ∈ A ++ B)
    {s : Segment} (hs : s ∈ F y) : s ≠ j := by
  rintro rfl
  rw [List.flatMap_append, List.flatMap_cons] at hn
  rw [List.nodup_append] at hn
  obtain ⟨_, h2, h3⟩ := hn
  rcases List.mem_append.mp hy with k | k
  · exact h3 s (List.mem_flatMap.mpr ⟨y, k, hs⟩) s (List.mem_append.mpr (Or.inl hj)) rfl
  · rw [List.nodup_append] at h2
    exact h2.2.2 s hj s (List.mem_flatMap.mpr ⟨y, k, hs⟩) rfl

theorem pairwise_split {α : Type} {R : α → α → Prop} {A B : List α} {x : α} (h : (A ++ x :: B).Pairwise R)
    {y : α} (hy : y ∈ A ++ B) : R x y ∨ R y x := by
  rw [List.pairwise_append] at h
  obtain ⟨_, h2, h3⟩ := h
  rcases List.mem_append.mp hy with k | k
  · exact Or.inr (h3 y k x (by simp))
  · exact Or.inl ((List.pairwise_cons.mp h2).1 y k)

/-! ### Overlaps -/

theorem not_atMostOne_seg {s : Segment} : ¬ AtMostOne (segPts s) ↔ s.start ≠ s.end := by
  constructor
  · intro h e
    apply h
    intro p hp q hq
    unfold segPts at hp hq
    rw [← e] at hp hq
    obtain ⟨t, _, _, rfl⟩ := hp
    obtain ⟨t', _, _, rfl⟩ := hq
    rw [Point.eq_iff]; unfold lerp; simp
  · intro h k
    exact h (k _ (start_mem_seg _ _) _ (end_mem_seg _ _))

theorem noOverlap_iff_sets {l : List Segment} : NoOverlap l ↔ (∀ S ∈ l.map segPts, ¬ AtMostOne S) ∧
    (l.map segPts).Pairwise (fun S T => AtMostOne (S ∩ T)) := by
  unfold NoOverlap
  rw [List.pairwise_map]
  refine and_congr ?_ Iff.rfl
  simp only [List.mem_map, forall_exists_index, and_imp, forall_apply_eq_imp_iff₂]
  exact forall₂_congr fun s _ => not_atMostOne_seg.symm

theorem noOverlap_of_perm {l l' : List Segment} (h : (l.map segPts).Perm (l'.map segPts)) (hn : NoOverlap l) :
    NoOverlap l' := by
  rw [noOverlap_iff_sets] at *
  refine ⟨fun S hS => hn.1 S (h.mem_iff.mpr hS), (h.pairwise_iff ?_).mp hn.2⟩
  intro S T k
  rw [Set.inter_comm]; exact k

theorem SameEdges.sets {l l' : List Segment} (h : SameEdges l l') : (l.map segPts).Perm (l'.map segPts) := by
  rcases h with h | h
  · exact h.map _
  · refine (h.map segPts).trans ?_
    rw [List.map_map]
    refine List.Perm.of_eq (List.map_congr_left fun s _ => segPts_reverse' s)

theorem flatMap_sets {α : Type} {F G : α → List Segment} {l : List α}
    (h : ∀ x ∈ l, ((F x).map segPts).Perm ((G x).map segPts)) :
    ((l.flatMap F).map segPts).Perm ((l.flatMap G).map segPts) := by
  induction l with
  | nil => exact List.Perm.refl _
  | cons x l ih =>
    rw [List.flatMap_cons, List.flatMap_cons, List.map_append, List.map_append]
    exact (h x (by simp)).append (ih fun y hy => h y (by simp [hy]))

theorem nodup_of_noOverlap {l : List Segment} (h : NoOverlap l) : l.Nodup := by
  refine List.Pairwise.imp_of_mem ?_ h.2
  rintro s t hs _ k rfl
  unfold Apart at k
  rw [Set.inter_self] at k
  exact not_atMostOne_seg.mpr (h.1 s hs) k

/-! ### Polygons -/

theorem polygon_sets {p : Polygon} (h : ValidPolygon p) : (p.correctlyOrientedSegments.map segPts).Perm
    (((polygonContours p).flatMap Contour.segments).map segPts) := by
  have key : ∀ c ∈ polygonContours p, ∀ t : Orientation, t ≠ .collinear →
      ((toOrientedSegments c.vertices t).map segPts).Perm (c.segments.map segPts) := by
    intro c hc t ht
    obtain ⟨ws, e, _, _, _, h4⟩ := oriented_edges (h.1 c hc) ht
    rw [e]; exact h4.sets
  unfold Polygon.correctlyOrientedSegments polygonContours
  rw [List.flatMap_cons, List.map_append, List.map_append]
  exact (key _ (by simp [polygonContours]) _ (by decide)).append
    (flatMap_sets fun c hc => key c (by simp [polygonContours, hc]) _ (by decide))

theorem polygons_sets {l : List Polygon} (h : ∀ p ∈ l, ValidPolygon p) :
    ((l.flatMap Polygon.correctlyOrientedSegments).map segPts).Perm
    ((l.flatMap fun p => (polygonContours p).flatMap Contour.segments).map segPts) :=
  flatMap_sets fun p hp => polygon_sets (h p hp)

theorem segsPts_flatMap {α : Type} (F : α → List Segment) (l : List α) (z : Point) :
    z ∈ segsPts (l.flatMap F) ↔ ∃ x ∈ l, z ∈ segsPts (F x) := by
  constructor
  · rintro ⟨s, hs, hz⟩
    obtain ⟨x, hx, hs⟩ := List.mem_flatMap.mp hs
    exact ⟨x, hx, s, hs, hz⟩
  · rintro ⟨x, hx, s, hs, hz⟩
    exact ⟨s, List.mem_flatMap.mpr ⟨x, hx, hs⟩, hz⟩

theorem segsPts_append (l l' : List Segment) (z : Point) :
    z ∈ segsPts (l ++ l') ↔ z ∈ segsPts l ∨ z ∈ segsPts l' := by
  constructor
  · rintro ⟨s, hs, hz⟩
    rcases List.mem_append.mp hs with k | k
    · exact Or.inl ⟨s, k, hz⟩
    · exact Or.inr ⟨s, k, hz⟩
  · rintro (⟨s, hs, hz⟩ | ⟨s, hs, hz⟩)
    · exact ⟨s, List.mem_append_left _ hs, hz⟩
    · exact ⟨s, List.mem_append_right _ hs, hz⟩

theorem openSeg_sub {a b z : Point} (h : z ∈ openSeg a b) : z ∈ seg a b := by
  obtain ⟨t, t0, t1, rfl⟩ := h
  exact ⟨t, t0.le, t1.le, rfl⟩

theorem polygon_edges {ε : ℚ} {p : Polygon} (h : ValidPolygon p)
    (hg : ∀ c ∈ polygonContours p, Gen ε (· ∈ c.vertices)) :
    Edges ε p.correctlyOrientedSegments {z | p.locate z = .interior} := by
  obtain ⟨h1, h2, h3, h4⟩ := id h
  have hn : p.correctlyOrientedSegments.Nodup := nodup_of_noOverlap (noOverlap_of_perm (polygon_sets h).symm h2)
  have hbm : p.border ∈ polygonContours p := by simp [polygonContours]
  have hhm : ∀ k ∈ p.holes, k ∈ polygonContours p := fun k hk => by simp [polygonContours, hk]
  obtain ⟨b1, b2, b3, b4, b5⟩ := oriented_parity (h1 _ hbm) (hg _ hbm) (t := .counterclockwise) (by decide)
  have hh := fun k hk => oriented_parity (h1 _ (hhm k hk)) (hg _ (hhm k hk)) (t := .clockwise) (by decide)
  have hxor : ∀ z, downParity ε z p.correctlyOrientedSegments =
      (downParity ε z (toOrientedSegments p.border.vertices .counterclockwise) ^^
        xorAll (fun k : Contour => downParity ε z (toOrientedSegments k.vertices .clockwise)) p.holes) := by
    intro z
    unfold Polygon.correctlyOrientedSegments
    rw [downParity_append, downParity_flatMap]
  refine ⟨?_, ?_, ?_, ?_⟩
  · intro s hs
    rcases List.mem_append.mp hs with k | k
    · exact b1 s k
    · obtain ⟨x, hx, hs⟩ := List.mem_flatMap.mp k
      exact (hh x hx).1 s hs
  · intro f
    unfold Polygon.correctlyOrientedSegments
    rw [xorSum_append, b2, xorSum_flatMap, xorAll_false fun x hx => (hh x hx).2.1 f]; rfl
  · intro j hj z hz hoff
    rw [hxor]
    have hj' := hj
    unfold Polygon.correctlyOrientedSegments at hj' hn hoff
    rcases List.mem_append.mp hj' with k | k
    · -- an edge of the border
      have hzb : locatePointInRegion p.border z = .boundary :=
        locatePointInRegion_of_mem (by rw [← b5]; exact ⟨j, k, openSeg_sub hz⟩)
      have hother : ∀ x ∈ p.holes, downParity ε z (toOrientedSegments x.vertices .clockwise) = false := by
        intro x hx
        have hzx : z ∉ contourPts x := by
          rw [← (hh x hx).2.2.2.2]
          rintro ⟨s, hs, hzs⟩
          refine hoff s (List.mem_append_right _ (List.mem_flatMap.mpr ⟨x, hx, hs⟩)) ?_ hzs
          rintro rfl
          exact (List.nodup_append.mp hn).2.2 s k s (List.mem_flatMap.mpr ⟨x, hx, hs⟩) rfl
        rw [(hh x hx).2.2.2.1 z hzx, decide_eq_false_iff_not]
        intro hi
        have := (h3 x hx z).1 hi
        rw [hzb] at this; cases this
      rw [xorAll_false hother, Bool.xor_false]
      exact eq_of_xor_true (by rw [b3 j k z hz]; rfl)
    · obtain ⟨x, hx, hjx⟩ := List.mem_flatMap.mp k
      have hzx : locatePointInRegion x z = .boundary :=
        locatePointInRegion_of_mem (by rw [← (hh x hx).2.2.2.2]; exact ⟨j, hjx, openSeg_sub hz⟩)
      have hzb : z ∉ contourPts p.border := by
        rw [← b5]
        rintro ⟨s, hs, hzs⟩
        refine hoff s (List.mem_append_left _ hs) ?_ hzs
        rintro rfl
        exact (List.nodup_append.mp hn).2.2 s hs s k rfl
      have hbi : locatePointInRegion p.border z = .interior := by
        have e1 := (h3 x hx z).2 hzx
        rw [locatePointInRegion_of_not_mem hzb] at e1 ⊢
        split at e1
        · rename_i q; rw [if_pos q]
        · exact absurd rfl e1
      obtain ⟨A, B, hAB⟩ := List.append_of_mem hx
      have hother : ∀ y ∈ A ++ B, downParity ε z (toOrientedSegments y.vertices .clockwise) = false := by
        intro y hy
        have hy' : y ∈ p.holes := by
          rw [hAB]
          rcases List.mem_append.mp hy with q | q <;> simp [q]
        have hzy : z ∉ contourPts y := by
          rw [← (hh y hy').2.2.2.2]
          rintro ⟨s, hs, hzs⟩
          refine hoff s (List.mem_append_right _ (List.mem_flatMap.mpr ⟨y, hy', hs⟩)) ?_ hzs
          have hn' := (List.nodup_append.mp hn).2.1
          rw [hAB] at hn'
          exact edges_flatMap_ne hn' hjx hy hs
        rw [(hh y hy').2.2.2.1 z hzy, decide_eq_false_iff_not]
        intro hi
        rw [hAB] at h4
        rcases pairwise_split h4 hy with q | q
        · exact (q z).2 ⟨hi, by rw [hzx]; decide⟩
        · exact (q z).1 ⟨hi, by rw [hzx]; decide⟩
      have e1 : xorAll (fun k : Contour => downParity ε z (toOrientedSegments k.vertices .clockwise)) p.holes =
          downParity ε z (toOrientedSegments x.vertices .clockwise) := by
        rw [hAB, xorAll_append, xorAll, xorAll_false fun y hy => hother y (List.mem_append_left _ hy),
          xorAll_false fun y hy => hother y (List.mem_append_right _ hy), Bool.false_xor, Bool.xor_false]
      rw [e1, b4 z hzb, hbi]
      have := (hh x hx).2.2.1 j hjx z hz
      rw [show decide (Orientation.clockwise = Orientation.counterclockwise) = false from rfl] at this
      rw [eq_of_xor_false this]
      cases downParity ε z (toOrientedSegments x.vertices .clockwise) <;> rfl
  · intro z hz
    unfold Polygon.correctlyOrientedSegments at hz
    rw [segsPts_append, segsPts_flatMap, not_or, b5] at hz
    have hzx : ∀ x ∈ p.holes, z ∉ contourPts x := fun x hx k => hz.2 ⟨x, hx, by rw [(hh x hx).2.2.2.2]; exact k⟩
    rw [hxor, b4 z hz.1, xorAll_congr fun x hx => (hh x hx).2.2.2.1 z (hzx x hx)]
    have hany := xorAll_any (g := fun x : Contour => decide (locatePointInRegion x z = .interior)) (l := p.holes)
      (h4.imp fun {x y} q => by
        rw [decide_eq_true_eq, decide_eq_true_eq]
        rintro ⟨k1, k2⟩
        exact (q z).1 ⟨k1, by rw [k2]; decide⟩)
    show _ ↔ p.locate z = .interior
    rw [(C24_polygon_locate p z).1]
    have ex : ∀ x ∈ p.holes, (locatePointInRegion x z = .exterior ↔ ¬ locatePointInRegion x z = .interior) := by
      intro x hx
      rw [locatePointInRegion_of_not_mem (hzx x hx)]
      split <;> simp
    by_cases hi : ∃ x ∈ p.holes, locatePointInRegion x z = .interior
    · obtain ⟨x, hx, k⟩ := hi
      rw [hany.mpr ⟨x, hx, by rw [k]; rfl⟩, (h3 x hx z).1 k]
      constructor
      · intro q; exact absurd q (by decide)
      · rintro ⟨_, q⟩
        exact absurd k ((ex x hx).mp (q x hx))
    · have hf : xorAll (fun x : Contour => decide (locatePointInRegion x z = .interior)) p.holes = false :=
        bool_false fun q => by
          obtain ⟨x, hx, k⟩ := hany.mp q
          exact hi ⟨x, hx, by rwa [decide_eq_true_eq] at k⟩
      rw [hf, Bool.xor_false, decide_eq_true_eq]
      constructor
      · intro q
        exact ⟨q, fun x hx => (ex x hx).mpr fun k => hi ⟨x, hx, k⟩⟩
      · exact fun q => q.1

theorem holesApart {p : Polygon} (h : ValidPolygon p) : HolesApart p := by
  intro x hx y hy z hz hi
  have hzx := locatePointInRegion_of_mem hz
  have h4 := h.2.2.2
  obtain ⟨A, B, hAB⟩ := List.append_of_mem hx
  rw [hAB] at h4 hy
  have hne : y ≠ x := by rintro rfl; rw [hzx] at hi; cases hi
  have hy' : y ∈ A ++ B := by
    simp only [List.mem_append, List.mem_cons] at hy ⊢
    tauto
  rcases pairwise_split h4 hy' with q | q
  · exact (q z).2 ⟨hi, by rw [hzx]; decide⟩
  · exact (q z).1 ⟨hi, by rw [hzx]; decide⟩

theorem polygon_boundary_of_mem {p : Polygon} (h : ValidPolygon p) {z : Point}
    (hz : z ∈ segsPts p.correctlyOrientedSegments) : p.locate z = .boundary := by
  obtain ⟨h1, _, h3, _⟩ := id h
  have hs : ∀ c ∈ polygonContours p, ∀ t : Orientation, t ≠ .collinear →
      segsPts (toOrientedSegments c.vertices t) = contourPts c := by
    intro c hc t ht
    obtain ⟨ws, e, _, _, _, k⟩ := oriented_edges (h1 c hc) ht
    rw [e]; exact k.segsPts
  unfold Polygon.correctlyOrientedSegments at hz
  rw [segsPts_append, segsPts_flatMap, hs p.border (by simp [polygonContours]) _ (by decide)] at hz
  rw [C24_valid_polygon_locate p (holesApart h) z]
  by_cases hb : z ∈ contourPts p.border
  · exact Or.inl hb
  right
  rcases hz with k | ⟨x, hx, k⟩
  · exact absurd k hb
  rw [hs x (by simp [polygonContours, hx]) _ (by decide)] at k
  have hzx := locatePointInRegion_of_mem k
  refine ⟨?_, x, hx, k⟩
  have e1 := (h3 x hx z).2 hzx
  rw [locatePointInRegion_of_not_mem hb] at e1 ⊢
  split at e1
  · rename_i q; rw [if_pos q]
  · exact absurd rfl e1

/-! ### Several polygons -/

/-- The points strictly inside of some of the polygons. -/
def insidePts (l : List Polygon) : Set Point := {z | ∃ p ∈ l, p.locate z = .interior}

theorem polygons_edges {ε : ℚ} {l : List Polygon} (h : ValidPolygons l)
    (hg : ∀ p ∈ l, ∀ c ∈ polygonContours p, Gen ε (· ∈ c.vertices)) :
    Edges ε (l.flatMap Polygon.correctlyOrientedSegments) (insidePts l) := by
  obtain ⟨h1, h2, h3⟩ := id h
  have hn : (l.flatMap Polygon.correctlyOrientedSegments).Nodup :=
    nodup_of_noOverlap (noOverlap_of_perm (polygons_sets h1).symm h2)
  have hp := fun p hp => polygon_edges (h1 p hp) (hg p hp)
  refine ⟨?_, ?_, ?_, ?_⟩
  · intro s hs
    obtain ⟨x, hx, hs⟩ := List.mem_flatMap.mp hs
    exact (hp x hx).inc s hs
  · intro f
    rw [xorSum_flatMap, xorAll_false fun x hx => (hp x hx).closed f]
  · intro j hj z hz hoff
    obtain ⟨x, hx, hjx⟩ := List.mem_flatMap.mp hj
    have hzx := polygon_boundary_of_mem (h1 x hx) ⟨j, hjx, openSeg_sub hz⟩
    obtain ⟨A, B, hAB⟩ := List.append_of_mem hx
    have hother : ∀ y ∈ A ++ B, downParity ε z y.correctlyOrientedSegments = false := by
      intro y hy
      have hy' : y ∈ l := by
        rw [hAB]
        rcases List.mem_append.mp hy with q | q <;> simp [q]
      have hzy : z ∉ segsPts y.correctlyOrientedSegments := by
        rintro ⟨s, hs, hzs⟩
        refine hoff s (List.mem_flatMap.mpr ⟨y, hy', hs⟩) ?_ hzs
        have hn' := hn
        rw [hAB] at hn'
        exact edges_flatMap_ne hn' hjx hy hs
      refine bool_false fun k => ?_
      have hi : y.locate z = .interior := ((hp y hy').off z hzy).mp k
      rw [hAB] at h3
      rcases pairwise_split h3 hy with q | q
      · exact (q z).2 ⟨hi, by rw [hzx]; decide⟩
      · exact (q z).1 ⟨hi, by rw [hzx]; decide⟩
    have e1 : downParity ε z (l.flatMap Polygon.correctlyOrientedSegments) = downParity ε z x.correctlyOrientedSegments := by
      rw [downParity_flatMap, hAB, xorAll_append, xorAll, xorAll_false fun y hy => hother y (List.mem_append_left _ hy),
        xorAll_false fun y hy => hother y (List.mem_append_right _ hy), Bool.false_xor, Bool.xor_false]
    rw [e1]
    exact (hp x hx).dir j hjx z hz fun s hs hne => hoff s (List.mem_flatMap.mpr ⟨x, hx, hs⟩) hne
  · intro z hz
    rw [segsPts_flatMap] at hz
    have hzx : ∀ x ∈ l, z ∉ segsPts x.correctlyOrientedSegments := fun x hx k => hz ⟨x, hx, k⟩
    rw [downParity_flatMap, xorAll_any]
    · constructor
      · rintro ⟨x, hx, k⟩; exact ⟨x, hx, ((hp x hx).off z (hzx x hx)).mp k⟩
      · rintro ⟨x, hx, k⟩; exact ⟨x, hx, ((hp x hx).off z (hzx x hx)).mpr k⟩
    · refine List.Pairwise.imp_of_mem ?_ h3
      rintro x y hx hy q ⟨k1, k2⟩
      have k1 : x.locate z = .interior := ((hp x hx).off z (hzx x hx)).mp k1
      have k2 : y.locate z = .interior := ((hp y hy).off z (hzx y hy)).mp k2
      exact (q z).1 ⟨k1, by rw [k2]; decide⟩

/-- The points of the polygons: on an edge or inside. -/
theorem polygons_pts {l : List Polygon} (h : ValidPolygons l) (z : Point) :
    (∃ p ∈ l, z ∈ polygonPts p) ↔ z ∈ segsPts (l.flatMap Polygon.correctlyOrientedSegments) ∨ z ∈ insidePts l := by
  rw [segsPts_flatMap]
  constructor
  · rintro ⟨p, hp, hz⟩
    by_cases k : z ∈ segsPts p.correctlyOrientedSegments
    · exact Or.inl ⟨p, hp, k⟩
    · right
      refine ⟨p, hp, ?_⟩
      have hz : p.locate z ≠ .exterior := hz
      rcases hl : p.locate z with _ | _ | _
      · exfalso
        apply k
        rw [C24_valid_polygon_locate p (holesApart (h.1 p hp)) z] at hl
        have hs : ∀ c ∈ polygonContours p, ∀ t : Orientation, t ≠ .collinear →
            segsPts (toOrientedSegments c.vertices t) = contourPts c := by
          intro c hc t ht
          obtain ⟨ws, e, _, _, _, k⟩ := oriented_edges ((h.1 p hp).1 c hc) ht
          rw [e]; exact k.segsPts
        unfold Polygon.correctlyOrientedSegments
        rw [segsPts_append, segsPts_flatMap, hs p.border (by simp [polygonContours]) _ (by decide)]
        rcases hl with hl | ⟨_, x, hx, hl⟩
        · exact Or.inl hl
        · exact Or.inr ⟨x, hx, by rw [hs x (by simp [polygonContours, hx]) _ (by decide)]; exact hl⟩
      · exact absurd hl hz
      · rfl
  · rintro (⟨p, hp, hz⟩ | ⟨p, hp, hz⟩)
    · exact ⟨p, hp, by show p.locate z ≠ _; rw [polygon_boundary_of_mem (h.1 p hp) hz]; decide⟩
    · exact ⟨p, hp, by show p.locate z ≠ _; rw [hz]; decide⟩

end Rene.Sweep
