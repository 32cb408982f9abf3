import Verif.Lemmas.Sweep.MixRun
import Verif.Lemmas.MultiMulti
import Verif.Props.Multisegmentals

/-! Runs of the mixed operations for a list of segments and the edges of valid polygons. -/

namespace Rene
open Spec Sweep

/-- The edges of polygons, directed so that the insides are on the left. -/
abbrev edgesOf (l : List Polygon) : List Segment := l.flatMap Polygon.correctlyOrientedSegments

theorem lo_x (s : Segment) : (lo s).x = min s.start.x s.end.x := by
  rcases lo_hi s with ⟨h, _, k⟩ | ⟨h, _, k⟩
  · rw [h]
    rw [Point.lt_iff] at k
    rw [min_eq_left]; rcases k with k | k
    · exact k.le
    · exact k.1.le
  · rw [h, min_eq_right]
    have := not_lt.mp k
    rw [Point.le_iff] at this
    rcases this with k | k
    · exact k.le
    · exact k.1.le

theorem hi_x (s : Segment) : (hi s).x = max s.start.x s.end.x := by
  rcases lo_hi s with ⟨_, h, k⟩ | ⟨_, h, k⟩
  · rw [h]
    rw [Point.lt_iff] at k
    rw [max_eq_right]; rcases k with k | k
    · exact k.le
    · exact k.1.le
  · rw [h, max_eq_left]
    have := not_lt.mp k
    rw [Point.le_iff] at this
    rcases this with k | k
    · exact k.le
    · exact k.1.le

theorem meetsRange_iff {s : Segment} {a b : ℚ} : s.meetsRange a b = true ↔ a ≤ (hi s).x ∧ (lo s).x ≤ b := by
  unfold Segment.meetsRange
  rw [Bool.and_eq_true, decide_eq_true_eq, decide_eq_true_eq, lo_x, hi_x]

theorem edges_noOverlap {l : List Polygon} (h : ValidPolygons l) : NoOverlap (edgesOf l) :=
  noOverlap_of_perm (polygons_sets h.1).symm h.2.1

open Classical in
/-- A suitable shear exists. -/
theorem exists_setting {lin : List Segment} {l : List Polygon} {a b : ℚ} (hl : NoOverlap lin) (hv : ValidPolygons l)
    (hm : ∀ s ∈ lin, (lo s).x ≤ b) (hlo : (∀ t ∈ lin, a ≤ (lo t).x) ∨ ∀ s ∈ edgesOf l, a ≤ (hi s).x)
    {T : Bool} {first second : List Segment}
    (ho : (T = true ∧ first = lin ∧ second = (edgesOf l).filter fun s => s.meetsRange a b) ∨
      (T = false ∧ first = ((edgesOf l).filter fun s => s.meetsRange a b) ∧ second = lin)) :
    ∃ ε, Setting ε first second lin ((edgesOf l).filter fun s => s.meetsRange a b) (edgesOf l) (insidePts l) T
        (fun p => decide (p.x > b)) ∧
      ∀ k, ((∀ s ∈ lin, (hi s).x ≤ b) ∨ (k = true ∧ ∀ s ∈ edgesOf l, (hi s).x ≤ b)) →
        Stops ε lin ((edgesOf l).filter fun s => s.meetsRange a b) (edgesOf l) (fun p => decide (p.x > b)) k := by
  have hE := edges_noOverlap hv
  set kept := (edgesOf l).filter fun s => s.meetsRange a b with hkept
  have hk : NoOverlap kept := noOverlap_filter hE _
  obtain ⟨ε, hg⟩ := exists_gen (points (first ++ second) ∪
    ((l.flatMap fun p => (polygonContours p).flatMap Contour.vertices).toFinset ∪
    (((edgesOf l).map lo).toFinset ∪ (((edgesOf l).map hi).toFinset ∪ ((lin.map lo).toFinset)))))
  have gP : ∀ v ∈ points (first ++ second), v ∈ (points (first ++ second) ∪
    ((l.flatMap fun p => (polygonContours p).flatMap Contour.vertices).toFinset ∪
    (((edgesOf l).map lo).toFinset ∪ (((edgesOf l).map hi).toFinset ∪ ((lin.map lo).toFinset))))) :=
    fun v hv => Finset.mem_union_left _ hv
  have gl : ∀ s ∈ edgesOf l, lo s ∈ (points (first ++ second) ∪
    ((l.flatMap fun p => (polygonContours p).flatMap Contour.vertices).toFinset ∪
    (((edgesOf l).map lo).toFinset ∪ (((edgesOf l).map hi).toFinset ∪ ((lin.map lo).toFinset))))) := by
    intro s hs
    simp only [Finset.mem_union, List.mem_toFinset, List.mem_map]
    exact Or.inr (Or.inr (Or.inl ⟨s, hs, rfl⟩))
  have gh : ∀ s ∈ edgesOf l, hi s ∈ (points (first ++ second) ∪
    ((l.flatMap fun p => (polygonContours p).flatMap Contour.vertices).toFinset ∪
    (((edgesOf l).map lo).toFinset ∪ (((edgesOf l).map hi).toFinset ∪ ((lin.map lo).toFinset))))) := by
    intro s hs
    simp only [Finset.mem_union, List.mem_toFinset, List.mem_map]
    exact Or.inr (Or.inr (Or.inr (Or.inl ⟨s, hs, rfl⟩)))
  have gt : ∀ s ∈ lin, lo s ∈ (points (first ++ second) ∪
    ((l.flatMap fun p => (polygonContours p).flatMap Contour.vertices).toFinset ∪
    (((edgesOf l).map lo).toFinset ∪ (((edgesOf l).map hi).toFinset ∪ ((lin.map lo).toFinset))))) := by
    intro s hs
    simp only [Finset.mem_union, List.mem_toFinset, List.mem_map]
    exact Or.inr (Or.inr (Or.inr (Or.inr ⟨s, hs, rfl⟩)))
  have gv : ∀ p ∈ l, ∀ c ∈ polygonContours p, ∀ v ∈ c.vertices, v ∈ (points (first ++ second) ∪
    ((l.flatMap fun p => (polygonContours p).flatMap Contour.vertices).toFinset ∪
    (((edgesOf l).map lo).toFinset ∪ (((edgesOf l).map hi).toFinset ∪ ((lin.map lo).toFinset))))) := by
    intro p hp c hc v hv
    rw [Finset.mem_union, Finset.mem_union, List.mem_toFinset]
    exact Or.inr (Or.inl (List.mem_flatMap.mpr ⟨p, hp, List.mem_flatMap.mpr ⟨c, hc, hv⟩⟩))
  generalize points (first ++ second) ∪
    ((l.flatMap fun p => (polygonContours p).flatMap Contour.vertices).toFinset ∪
    (((edgesOf l).map lo).toFinset ∪ (((edgesOf l).map hi).toFinset ∪ ((lin.map lo).toFinset)))) = V at *
  have ltx : ∀ {u v : Point}, u.x < v.x → u < v := fun h => Point.lt_iff.mpr (Or.inl h)
  have left : ∀ s ∈ edgesOf l, (hi s).x < a → ∀ t ∈ lin, Xe ε (hi s) ≤ Xe ε (lo t) := by
    intro s hs h t ht
    rcases hlo with z | z
    · exact (hg _ (gh s hs) _ (gt t ht) (ltx (lt_of_lt_of_le h (z t ht)))).le
    · exact absurd (z s hs) (not_le.mpr h)
  refine ⟨ε, ⟨ho, ?_, ?_, hE, hl, fun s hs => (List.mem_filter.mp hs).1, mono_x b, ?_, ?_⟩, ?_⟩
  · refine good_of_eps (first := first) (second := second) ?_ ?_ ?_
    · rcases ho with ⟨_, rfl, rfl⟩ | ⟨_, rfl, rfl⟩ <;> assumption
    · rcases ho with ⟨_, rfl, rfl⟩ | ⟨_, rfl, rfl⟩ <;> assumption
    · intro u hu huv
      rw [Finset.mem_product] at hu
      exact hg _ (gP _ hu.1) _ (gP _ hu.2) huv
  · exact polygons_edges hv fun p hp c hc u hu v hv' huv => hg _ (gv p hp c hc u hu) _ (gv p hp c hc v hv') huv
  · intro s hs
    rw [decide_eq_false_iff_not, not_lt]; exact hm s hs
  · intro s hs
    by_cases k : s.meetsRange a b = true
    · exact Or.inl (List.mem_filter.mpr ⟨hs, k⟩)
    · right
      rw [meetsRange_iff, not_and_or, not_le, not_le] at k
      rcases k with k | k
      · exact Or.inl (left s hs k)
      · refine Or.inr fun v hv hst => ?_
        rw [decide_eq_false_iff_not, not_lt] at hst
        exact hg _ (gP v hv) _ (gl s hs) (ltx (lt_of_le_of_lt hst k))
  · rintro k (h | ⟨rfl, h⟩)
    · refine Or.inl fun s hs => ?_
      rw [decide_eq_false_iff_not, not_lt]; exact h s hs
    · refine Or.inr ⟨rfl, fun s hs => ?_⟩
      by_cases z : s.meetsRange a b = true
      · refine Or.inl ⟨List.mem_filter.mpr ⟨hs, z⟩, ?_⟩
        rw [decide_eq_false_iff_not, not_lt]; exact h s hs
      · right
        rw [meetsRange_iff, not_and_or, not_le, not_le] at z
        rcases z with z | z
        · exact left s hs z
        · have hle : (lo s).x ≤ (hi s).x := by rw [lo_x, hi_x]; exact min_le_max
          have := h s hs
          linarith

theorem mem_region {l : List Polygon} (h : ValidPolygons l) (q : Point) :
    q ∈ regionPts l ↔ q ∈ segsPts (edgesOf l) ∨ q ∈ insidePts l := polygons_pts h q

section
variable {lin : List Segment} {l : List Polygon} {a b : ℚ}

/-- Intersections of a list of segments with polygons, up to finitely many points. -/
theorem mixed_intersection (hl : NoOverlap lin) (hv : ValidPolygons l) (hm : ∀ s ∈ lin, (lo s).x ≤ b)
    (hlo : (∀ t ∈ lin, a ≤ (lo t).x) ∨ ∀ s ∈ edgesOf l, a ≤ (hi s).x)
    (hhi : (∀ s ∈ lin, (hi s).x ≤ b) ∨ ∀ s ∈ edgesOf l, (hi s).x ≤ b)
    {op : MixOp} {first second : List Segment}
    (ho : (op = .linearShapedIntersection ∧ first = lin ∧ second = (edgesOf l).filter fun s => s.meetsRange a b) ∨
      (op = .shapedLinearIntersection ∧ first = ((edgesOf l).filter fun s => s.meetsRange a b) ∧ second = lin)) :
    FullyNoded (op.run (fun p => decide (p.x > b)) isLeft first second) ∧
    ∃ F : List Point, ∀ q ∉ F, (q ∈ segsPts (op.run (fun p => decide (p.x > b)) isLeft first second) ↔
      q ∈ segsPts lin ∧ q ∈ regionPts l) := by
  have key : ∃ T : Bool, ((T = true ∧ first = lin ∧ second = (edgesOf l).filter fun s => s.meetsRange a b) ∨
      (T = false ∧ first = ((edgesOf l).filter fun s => s.meetsRange a b) ∧ second = lin)) ∧
      ∀ f o v, det op f o v = ((f == T) && (true == (o || v))) := by
    rcases ho with ⟨rfl, h⟩ | ⟨rfl, h⟩
    · exact ⟨true, Or.inl ⟨rfl, h⟩, by decide⟩
    · exact ⟨false, Or.inr ⟨rfl, h⟩, by decide⟩
  obtain ⟨T, ho', hop⟩ := key
  obtain ⟨ε, S, hst⟩ := exists_setting hl hv hm hlo ho'
  have he := hst true (hhi.imp id fun h => ⟨rfl, h⟩)
  have h := (S.final op isLeft).1
  have hw : ∀ x, isLeft x = true → isLeft x = true := fun _ h => h
  have e : op.run (fun p => decide (p.x > b)) isLeft first second = pieces _ _ := reduce_left h
  rw [e]
  refine ⟨S.pieces_noded h hop he hw, (ctxOf first second ε).P.toList, fun q hq => ?_⟩
  rw [Finset.mem_toList] at hq
  rw [mem_region hv]
  constructor
  · intro hm
    obtain ⟨h1, h2⟩ := S.pieces_sub h hop he hw hq hm
    exact ⟨h1, h2.mp rfl⟩
  · rintro ⟨h1, h2⟩
    exact S.pieces_sup h hop he hw hq h1 (iff_of_true rfl h2)

/-- Differences of a list of segments and polygons, up to finitely many points. -/
theorem mixed_difference (hl : NoOverlap lin) (hv : ValidPolygons l)
    (hlo : ∀ t ∈ lin, a ≤ (lo t).x) (hhi : ∀ s ∈ lin, (hi s).x ≤ b) :
    ∃ P : List Segment, (MixOp.linearShapedDifference.run (fun p => decide (p.x > b)) (fun _ => true) lin
        ((edgesOf l).filter fun s => s.meetsRange a b)).Perm (P ++ P.map Segment.reverse) ∧ FullyNoded P ∧
      (∀ r ∈ P, ∃ t ∈ lin, segPts r ⊆ segPts t) ∧ ∃ F : List Point, ∀ q ∉ F, (q ∈ segsPts P ↔ q ∈ segsPts lin ∧ q ∉ regionPts l) := by
  have hop : ∀ f o v, det .linearShapedDifference f o v = ((f == true) && (false == (o || v))) := by decide
  have hm : ∀ s ∈ lin, (lo s).x ≤ b := by
    intro s hs
    have hle : (lo s).x ≤ (hi s).x := by rw [lo_x, hi_x]; exact min_le_max
    exact hle.trans (hhi s hs)
  obtain ⟨ε, S, hst⟩ := exists_setting hl hv hm (Or.inl hlo) (Or.inl ⟨rfl, rfl, rfl⟩)
  have he := hst false (Or.inl hhi)
  have h := (S.final .linearShapedDifference (fun _ => true)).1
  refine ⟨_, S.reduce_all h hop he, S.pieces_noded h hop he (fun _ _ => rfl),
    fun r hr => S.pieces_piece h hop he (fun _ _ => rfl) hr, (ctxOf lin ((edgesOf l).filter fun s => s.meetsRange a b) ε).P.toList, fun q hq => ?_⟩
  rw [Finset.mem_toList] at hq
  rw [mem_region hv]
  constructor
  · intro hm
    obtain ⟨h1, h2⟩ := S.pieces_sub h hop he (fun _ _ => rfl) hq hm
    exact ⟨h1, fun z => absurd (h2.mpr z) (by simp)⟩
  · rintro ⟨h1, h2⟩
    exact S.pieces_sup h hop he (fun _ _ => rfl) hq h1 (iff_of_false (by simp) h2)

end
end Rene

namespace Rene
open Spec Sweep

/-! ### Boxes -/

theorem polygon_box {p : Polygon} (h : 3 ≤ p.border.vertices.length) : polygonPts p ⊆ boxPts p.boundingBox := by
  intro q hq
  by_contra k
  have e := C22_outside_bounding_box p.border h q k
  apply hq
  unfold Polygon.locate
  rw [e]

theorem validPolygon_box {p : Polygon} (h : ValidPolygon p) : polygonPts p ⊆ boxPts p.boundingBox :=
  polygon_box (h.1 p.border (by simp [polygonContours])).1

theorem validPolygons_single {p : Polygon} (h : ValidPolygon p) : ValidPolygons [p] := by
  refine ⟨by simpa using h, ?_, List.pairwise_singleton _ _⟩
  rw [List.flatMap_singleton]
  exact h.2.1

theorem sublist_flatMap {α β : Type} (f : α → List β) {l l' : List α} (h : l.Sublist l') :
    (l.flatMap f).Sublist (l'.flatMap f) := by
  induction h with
  | slnil => exact List.Sublist.refl _
  | cons a _ ih => rw [List.flatMap_cons]; exact ih.trans (List.sublist_append_right _ _)
  | cons_cons a _ ih => rw [List.flatMap_cons, List.flatMap_cons]; exact ih.append_left _

theorem validPolygons_filter {l : List Polygon} (h : ValidPolygons l) (f : Polygon → Bool) :
    ValidPolygons (l.filter f) := by
  refine ⟨fun p hp => h.1 p (List.mem_filter.mp hp).1, ?_, h.2.2.filter f⟩
  have hs := sublist_flatMap (fun p : Polygon => (polygonContours p).flatMap Contour.segments)
    (List.filter_sublist (p := f) (l := l))
  exact ⟨fun s k => h.2.1.1 s (hs.subset k), h.2.1.2.sublist hs⟩

theorem regionPts_single (p : Polygon) : regionPts [p] = polygonPts p := by
  ext q; simp [regionPts]

theorem edgesOf_single (p : Polygon) : edgesOf [p] = p.correctlyOrientedSegments := by
  simp [edgesOf]

theorem mergeBoxes_sub (b : Box) (l : List Box) : ∀ c ∈ b :: l, boxPts c ⊆ boxPts (mergeBoxes b l) := by
  unfold mergeBoxes
  induction l generalizing b with
  | nil => intro c hc; rw [List.mem_singleton.mp hc]; exact fun _ h => h
  | cons a l ih =>
    rw [List.foldl_cons]
    have e : ∀ c, c = b ∨ c = a → boxPts c ⊆ boxPts (mergeBox b a) := by
      rintro c (rfl | rfl)
      · intro q hq
        rw [mem_boxPts] at *
        simp only [mergeBox]
        grind
      · intro q hq
        rw [mem_boxPts] at *
        simp only [mergeBox]
        grind
    intro c hc
    rcases List.mem_cons.mp hc with rfl | hc
    · exact (e c (Or.inl rfl)).trans (ih _ _ List.mem_cons_self)
    · rcases List.mem_cons.mp hc with rfl | hc
      · exact (e c (Or.inr rfl)).trans (ih _ _ List.mem_cons_self)
      · exact ih _ c (List.mem_cons_of_mem _ hc)

theorem region_box {m : Multipolygon} (h : ∀ p ∈ m.polygons, ValidPolygon p) :
    regionPts m.polygons ⊆ boxPts m.boundingBox := by
  rintro q ⟨p, hp, hq⟩
  have h1 := validPolygon_box (h p hp) hq
  unfold Multipolygon.boundingBox
  rcases hm : m.polygons with _ | ⟨a, l⟩
  · rw [hm] at hp; cases hp
  · rw [hm] at hp
    refine mergeBoxes_sub _ _ p.boundingBox ?_ h1
    rcases List.mem_cons.mp hp with rfl | k
    · exact List.mem_cons_self
    · exact List.mem_cons_of_mem _ (List.mem_map_of_mem k)

theorem edges_x {l : List Polygon} (hv : ValidPolygons l) {b0 b1 : ℚ} (h : ∀ q ∈ regionPts l, b0 ≤ q.x ∧ q.x ≤ b1) :
    ∀ s ∈ edgesOf l, b0 ≤ (hi s).x ∧ (hi s).x ≤ b1 := by
  intro s hs
  refine h _ ((mem_region hv _).mpr (Or.inl ⟨s, hs, ?_⟩))
  rw [segPts_eq]; exact end_mem_seg _ _

theorem segment_minX (s : Segment) : s.boundingBox.minX = (lo s).x := by
  rw [lo_x, min_comm]; rfl

theorem segment_maxX (s : Segment) : s.boundingBox.maxX = (hi s).x := by
  rw [hi_x, max_comm]; rfl

/-- Polygons without a common continuum with a box share only finitely many points with what is in it. -/
theorem exceptional_region {S : Set Point} {l : List Polygon} (h : ∀ p ∈ l, AtMostOne (S ∩ polygonPts p)) :
    ∃ F : List Point, ∀ q ∉ F, q ∈ S → q ∉ regionPts l := by
  induction l with
  | nil => exact ⟨[], fun q _ _ hq => by obtain ⟨p, hp, _⟩ := hq; cases hp⟩
  | cons p l ih =>
    obtain ⟨F, hF⟩ := ih fun r hr => h r (List.mem_cons_of_mem _ hr)
    obtain ⟨F', hF'⟩ := exceptional_of_atMostOne (h p List.mem_cons_self)
    refine ⟨F ++ F', fun q hq hS hr => ?_⟩
    rw [List.mem_append, not_or] at hq
    obtain ⟨r, hr, hqr⟩ := hr
    rcases List.mem_cons.mp hr with rfl | hr
    · exact hF' q hq.2 hS hqr
    · exact hF q hq.1 hS ⟨r, hr, hqr⟩

theorem region_filter {A : List Segment} {l : List Polygon} {a : Box} (ha : segsPts A ⊆ boxPts a)
    (hl : ∀ p ∈ l, ValidPolygon p) : ∃ F : List Point, ∀ q ∉ F, q ∈ segsPts A →
      (q ∈ regionPts l ↔ q ∈ regionPts (l.filter fun p => doBoxesHaveCommonContinuum p.boundingBox a)) := by
  obtain ⟨F, hF⟩ := exceptional_region (S := segsPts A)
    (l := l.filter fun p => !doBoxesHaveCommonContinuum p.boundingBox a) (by
      intro p hp
      rw [List.mem_filter] at hp
      rw [Set.inter_comm]
      exact atMostOne_mono (Set.inter_subset_inter (validPolygon_box (hl p hp.1)) ha)
        (atMostOne_of_noCommonContinuum (noCommon_true (by simpa using hp.2))))
  refine ⟨F, fun q hq hA => ⟨?_, ?_⟩⟩
  · rintro ⟨p, hp, hqp⟩
    by_cases k : doBoxesHaveCommonContinuum p.boundingBox a = true
    · exact ⟨p, List.mem_filter.mpr ⟨hp, k⟩, hqp⟩
    · exact absurd ⟨p, List.mem_filter.mpr ⟨hp, by simpa using k⟩, hqp⟩ (hF q hq hA)
  · rintro ⟨p, hp, hqp⟩
    exact ⟨p, (List.mem_filter.mp hp).1, hqp⟩

theorem segments_filter {A : List Segment} {S : Set Point} {b : Box} (hb : S ⊆ boxPts b) :
    ∃ F : List Point, ∀ q ∉ F, q ∈ S →
      (q ∈ segsPts A ↔ q ∈ segsPts (A.filter fun s => doBoxesHaveCommonContinuum s.boundingBox b)) := by
  obtain ⟨F, hF⟩ := exceptional_box (l := A.filter fun s => !doBoxesHaveCommonContinuum s.boundingBox b) (T := S) (by
    intro s hs
    rw [List.mem_filter] at hs
    exact atMostOne_mono (Set.inter_subset_inter (segPts_subset_boundingBox s) hb)
      (atMostOne_of_noCommonContinuum (noCommon_true (by simpa using hs.2))))
  refine ⟨F, fun q hq hS => ⟨fun h => ?_, fun h => segsPts_filter_sub _ _ h⟩⟩
  rcases (segsPts_parts A (fun s => doBoxesHaveCommonContinuum s.boundingBox b) q).mp h with k | k
  · exact k
  · exact absurd hS (hF q hq k)

/-- Outcome of an intersection of linear and shaped operands. -/
def IsIntersection (r : Except Err Geom) (S : Set Point) : Prop :=
  ∃ g, r = .ok g ∧ LinearResult g ∧ linPts g = reg S ∧ FullyNoded (geomSegs g)

theorem inter_empty {S : Set Point} (h : ∃ F : List Point, ∀ q ∉ F, q ∉ S) : IsIntersection (.ok .empty) S := by
  obtain ⟨F, hF⟩ := h
  refine ⟨_, rfl, Or.inl rfl, ?_, ⟨by simp [geomSegs], List.Pairwise.nil⟩⟩
  exact reg_eq_of_finite (l := []) (by simp) F (fun p hp => by simp [segsPts_nil] at hp)
    (fun p hp hq => absurd hp (hF p hq))

section
variable {A C1 : List Segment} {l C2 : List Polygon} {a0 a1 b0 b1 : ℚ} {op : MixOp} {first second : List Segment}

theorem inter_collect (hC : NoOverlap C1) (hv : ValidPolygons C2)
    (hF : ∃ F : List Point, ∀ q ∉ F, (q ∈ segsPts A ∧ q ∈ regionPts l ↔ q ∈ segsPts C1 ∧ q ∈ regionPts C2))
    (ha : ∀ s ∈ C1, a0 ≤ s.boundingBox.minX ∧ s.boundingBox.maxX ≤ a1)
    (hb : ∀ q ∈ regionPts C2, b0 ≤ q.x ∧ q.x ≤ b1)
    (ho : (op = .linearShapedIntersection ∧ first = (C1.filter fun s => s.meetsRange (max a0 b0) (min a1 b1)) ∧
        second = (edgesOf C2).filter fun s => s.meetsRange (max a0 b0) (min a1 b1)) ∨
      (op = .shapedLinearIntersection ∧
        first = ((edgesOf C2).filter fun s => s.meetsRange (max a0 b0) (min a1 b1)) ∧
        second = C1.filter fun s => s.meetsRange (max a0 b0) (min a1 b1))) :
    IsIntersection (collectMaybeEmptySegments (op.run (fun p => decide (p.x > min a1 b1)) isLeft first second))
      (segsPts A ∩ regionPts l) := by
  have ha' : ∀ s ∈ C1, a0 ≤ (lo s).x ∧ (hi s).x ≤ a1 := by
    intro s hs
    rw [← segment_minX, ← segment_maxX]; exact ha s hs
  have he := edges_x hv hb
  set a := max a0 b0 with hadef
  set b := min a1 b1 with hbdef
  have hlin : NoOverlap (C1.filter fun s => s.meetsRange a b) := noOverlap_filter hC _
  have mem : ∀ s ∈ C1.filter (fun s => s.meetsRange a b), s ∈ C1 ∧ a ≤ (hi s).x ∧ (lo s).x ≤ b := by
    intro s hs
    rw [List.mem_filter, meetsRange_iff] at hs
    exact hs
  obtain ⟨k1, F, k2⟩ := mixed_intersection hlin hv (fun s hs => (mem s hs).2.2) (a := a) (by
    rcases le_total a0 b0 with z | z
    · right; intro s hs
      rw [hadef, max_eq_right z]; exact (he s hs).1
    · left; intro s hs
      rw [hadef, max_eq_left z]; exact (ha' s (mem s hs).1).1) (by
    rcases le_total a1 b1 with z | z
    · left; intro s hs
      rw [hbdef, min_eq_left z]; exact (ha' s (mem s hs).1).2
    · right; intro s hs
      rw [hbdef, min_eq_right z]; exact (he s hs).2) ho
  obtain ⟨F', hF'⟩ := hF
  obtain ⟨g, e, hg, hl⟩ := collectMaybe_spec' (op.run (fun p => decide (p.x > b)) isLeft first second)
  refine ⟨g, e, hg, ?_, by rw [hl]; exact k1⟩
  unfold linPts
  rw [hl]
  have key : ∀ q ∈ regionPts C2, q ∈ segsPts C1 → a ≤ q.x ∧ q.x ≤ b := by
    intro q hq hq1
    obtain ⟨h1, h2⟩ := hb q hq
    obtain ⟨s, hs, hqs⟩ := hq1
    have bx := mem_boxPts.mp (segPts_subset_boundingBox s hqs)
    have := ha s hs
    exact ⟨max_le (by linarith) h1, le_min (by linarith) h2⟩
  refine reg_eq_of_finite k1.1 (F ++ F') ?_ ?_
  · intro q hq hqF
    rw [List.mem_append, not_or] at hqF
    obtain ⟨h1, h2⟩ := (k2 q hqF.1).mp hq
    exact (hF' q hqF.2).mpr ⟨segsPts_filter_sub _ _ h1, h2⟩
  · intro q hq hqF
    rw [List.mem_append, not_or] at hqF
    obtain ⟨h1, h2⟩ := (hF' q hqF.2).mp hq
    obtain ⟨x1, x2⟩ := key q h2 h1
    exact (k2 q hqF.1).mpr ⟨(mem_meets x1 x2).mpr h1, h2⟩

end
end Rene
