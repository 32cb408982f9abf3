import Verif.Lemmas.MixedOps

/-! # C48, C49: boolean operations between linear and shaped geometries

`Constructed`, `NoOverlap` and `reg` as in C35; `ValidPolygon(s)` and `polygonPts`, `regionPts` are those of
`Verif/Spec/Shapes.lean`. -/

namespace Rene
open Spec Sweep

section
variable {s : Segment} {m : Multisegmental} {p : Polygon} {mp : Multipolygon}

/-! ### Helpers -/

theorem single_x : ∀ t ∈ [s], s.boundingBox.minX ≤ t.boundingBox.minX ∧ t.boundingBox.maxX ≤ s.boundingBox.maxX := by
  intro t ht; rw [List.mem_singleton.mp ht]; exact ⟨le_rfl, le_rfl⟩

theorem list_x {C : List Segment} : ∀ t ∈ C, listMin (C.map fun s => s.boundingBox.minX) ≤ t.boundingBox.minX ∧
    t.boundingBox.maxX ≤ listMax (C.map fun s => s.boundingBox.maxX) := fun t ht =>
  ⟨listMin_le (List.mem_map_of_mem (f := fun s : Segment => s.boundingBox.minX) ht),
    le_listMax (List.mem_map_of_mem (f := fun s : Segment => s.boundingBox.maxX) ht)⟩

theorem polygon_x (h : ValidPolygon p) : ∀ q ∈ regionPts [p], p.boundingBox.minX ≤ q.x ∧ q.x ≤ p.boundingBox.maxX := by
  intro q hq
  rw [regionPts_single] at hq
  have := mem_boxPts.mp (validPolygon_box h hq)
  exact ⟨this.1, this.2.1⟩

theorem polygons_x {C : List Polygon} (h : ValidPolygons C) : ∀ q ∈ regionPts C,
    listMin (C.map fun p => p.boundingBox.minX) ≤ q.x ∧ q.x ≤ listMax (C.map fun p => p.boundingBox.maxX) := by
  rintro q ⟨p, hp, hq⟩
  have := mem_boxPts.mp (validPolygon_box (h.1 p hp) hq)
  exact ⟨(listMin_le (List.mem_map_of_mem (f := fun p : Polygon => p.boundingBox.minX) hp)).trans this.1,
    this.2.1.trans (le_listMax (List.mem_map_of_mem (f := fun p : Polygon => p.boundingBox.maxX) hp))⟩

theorem finite_inter_boxes {S T : Set Point} {a b : Box} (h1 : S ⊆ boxPts a) (h2 : T ⊆ boxPts b)
    (h : doBoxesHaveNoCommonContinuum a b = true) : ∃ F : List Point, ∀ q ∉ F, q ∉ S ∩ T := by
  obtain ⟨F, hF⟩ := exceptional_of_atMostOne
    (atMostOne_mono (Set.inter_subset_inter h1 h2) (atMostOne_of_noCommonContinuum h))
  exact ⟨F, fun q hq hS => hF q hq hS.1 hS.2⟩

/-- Boxes with a common continuum meet. -/
theorem ranges_meet {a b : Box} (h : ¬ doBoxesHaveNoCommonContinuum a b = true) :
    a.minX ≤ b.maxX ∧ b.minX ≤ a.maxX := by
  rw [noCommonContinuum_iff] at h
  simp only [not_or, not_lt] at h
  constructor <;> grind

theorem single_meets {a b : ℚ} (h1 : a ≤ (hi s).x) (h2 : (lo s).x ≤ b) :
    [s].filter (fun t => t.meetsRange a b) = [s] := by
  simp [List.filter, meetsRange_iff.mpr ⟨h1, h2⟩]

theorem lo_le_hi_x (s : Segment) : (lo s).x ≤ (hi s).x := by rw [lo_x, hi_x]; exact min_le_max

theorem single_meets_box {a b : ℚ} (h1 : a ≤ s.boundingBox.maxX) (h2 : s.boundingBox.minX ≤ b) :
    [s].filter (fun t => t.meetsRange (max s.boundingBox.minX a) (min s.boundingBox.maxX b)) = [s] := by
  have h := lo_le_hi_x s
  rw [segment_minX, segment_maxX] at *
  exact single_meets (max_le h h1) (le_min h h2)

theorem single_meets_box' {a b : ℚ} (h1 : a ≤ s.boundingBox.maxX) (h2 : s.boundingBox.minX ≤ b) :
    [s].filter (fun t => t.meetsRange (max a s.boundingBox.minX) (min b s.boundingBox.maxX)) = [s] := by
  rw [max_comm, min_comm]; exact single_meets_box h1 h2

/-! ### Intersections -/

/-- C48 `segment & polygon`: the regularised intersection with the closed region; the components meet only at
common ends. -/
theorem C48_segment_polygon (hs : s.start ≠ s.end) (hp : ValidPolygon p) :
    ∃ g, intersectSegmentWithPolygon s p = .ok g ∧ LinearResult g ∧
      linPts g = reg (segPts s ∩ polygonPts p) ∧ FullyNoded (geomSegs g) := by
  unfold intersectSegmentWithPolygon
  simp only
  by_cases k1 : doBoxesHaveNoCommonContinuum s.boundingBox p.boundingBox = true
  · rw [if_pos k1]
    exact inter_empty (finite_inter_boxes (segPts_subset_boundingBox s) (validPolygon_box hp) k1)
  rw [if_neg k1]
  obtain ⟨m1, m2⟩ := ranges_meet k1
  have := inter_collect (A := [s]) (C1 := [s]) (l := [p]) (C2 := [p]) (noOverlap_single hs)
    (validPolygons_single hp) ⟨[], fun q _ => Iff.rfl⟩ single_x (polygon_x hp) (Or.inl ⟨rfl, rfl, rfl⟩)
  rw [single_meets_box m2 m1, segsPts_single, regionPts_single, edgesOf_single] at this
  exact this

/-- C48 `polygon & segment`. -/
theorem C48_polygon_segment (hs : s.start ≠ s.end) (hp : ValidPolygon p) :
    ∃ g, intersectPolygonWithSegment p s = .ok g ∧ LinearResult g ∧
      linPts g = reg (segPts s ∩ polygonPts p) ∧ FullyNoded (geomSegs g) := by
  unfold intersectPolygonWithSegment
  simp only
  by_cases k1 : doBoxesHaveNoCommonContinuum p.boundingBox s.boundingBox = true
  · rw [if_pos k1, Set.inter_comm]
    exact inter_empty (finite_inter_boxes (validPolygon_box hp) (segPts_subset_boundingBox s) k1)
  rw [if_neg k1, max_comm, min_comm]
  obtain ⟨m1, m2⟩ := ranges_meet k1
  have := inter_collect (A := [s]) (C1 := [s]) (l := [p]) (C2 := [p]) (noOverlap_single hs)
    (validPolygons_single hp) ⟨[], fun q _ => Iff.rfl⟩ single_x (polygon_x hp) (Or.inr ⟨rfl, rfl, rfl⟩)
  rw [single_meets_box m1 m2, segsPts_single, regionPts_single, edgesOf_single] at this
  exact this

/-- C48 `multisegmental & polygon`. -/
theorem C48_multisegmental_polygon (hc : Constructed m) (hm : NoOverlap m.segments) (hp : ValidPolygon p) :
    ∃ g, intersectMultisegmentalWithPolygon m p = .ok g ∧ LinearResult g ∧
      linPts g = reg (segsPts m.segments ∩ polygonPts p) ∧ FullyNoded (geomSegs g) := by
  have t1 := (multisegmental_tight hc).1
  have t2 := validPolygon_box hp
  obtain ⟨F, hF⟩ := segments_filter (A := m.segments) t2
  unfold intersectMultisegmentalWithPolygon
  simp only
  by_cases k1 : doBoxesHaveNoCommonContinuum m.boundingBox p.boundingBox = true
  · rw [if_pos k1]
    exact inter_empty (finite_inter_boxes t1 t2 k1)
  rw [if_neg k1]
  by_cases k2 : m.segments.filter (fun s => doBoxesHaveCommonContinuum s.boundingBox p.boundingBox) = []
  · rw [if_pos k2]
    refine inter_empty ⟨F, fun q hq z => ?_⟩
    have := (hF q hq z.2).mp z.1
    rw [k2, segsPts_nil] at this
    exact this
  rw [if_neg k2]
  have := inter_collect (A := m.segments) (l := [p]) (C2 := [p])
    (C1 := m.segments.filter fun s => doBoxesHaveCommonContinuum s.boundingBox p.boundingBox)
    (noOverlap_filter hm _) (validPolygons_single hp)
    ⟨F, fun q hq => and_congr_left fun z => hF q hq (by rwa [regionPts_single] at z)⟩
    list_x (polygon_x hp) (Or.inl ⟨rfl, rfl, rfl⟩)
  rw [regionPts_single, edgesOf_single] at this
  exact this

/-- C48 `polygon & multisegmental`. -/
theorem C48_polygon_multisegmental (hc : Constructed m) (hm : NoOverlap m.segments) (hp : ValidPolygon p) :
    ∃ g, intersectPolygonWithMultisegmental p m = .ok g ∧ LinearResult g ∧
      linPts g = reg (segsPts m.segments ∩ polygonPts p) ∧ FullyNoded (geomSegs g) := by
  have t1 := (multisegmental_tight hc).1
  have t2 := validPolygon_box hp
  obtain ⟨F, hF⟩ := segments_filter (A := m.segments) t2
  unfold intersectPolygonWithMultisegmental
  simp only
  by_cases k1 : doBoxesHaveNoCommonContinuum p.boundingBox m.boundingBox = true
  · rw [if_pos k1, Set.inter_comm]
    exact inter_empty (finite_inter_boxes t2 t1 k1)
  rw [if_neg k1]
  by_cases k2 : m.segments.filter (fun s => doBoxesHaveCommonContinuum s.boundingBox p.boundingBox) = []
  · rw [if_pos k2]
    refine inter_empty ⟨F, fun q hq z => ?_⟩
    have := (hF q hq z.2).mp z.1
    rw [k2, segsPts_nil] at this
    exact this
  rw [if_neg k2, max_comm, min_comm]
  have := inter_collect (A := m.segments) (l := [p]) (C2 := [p])
    (C1 := m.segments.filter fun s => doBoxesHaveCommonContinuum s.boundingBox p.boundingBox)
    (noOverlap_filter hm _) (validPolygons_single hp)
    ⟨F, fun q hq => and_congr_left fun z => hF q hq (by rwa [regionPts_single] at z)⟩
    list_x (polygon_x hp) (Or.inr ⟨rfl, rfl, rfl⟩)
  rw [regionPts_single, edgesOf_single] at this
  exact this

/-- C48 `segment & multipolygon`. -/
theorem C48_segment_multipolygon (hs : s.start ≠ s.end) (hp : ValidPolygons mp.polygons) :
    ∃ g, intersectSegmentWithMultipolygon s mp = .ok g ∧ LinearResult g ∧
      linPts g = reg (segPts s ∩ regionPts mp.polygons) ∧ FullyNoded (geomSegs g) := by
  have t1 := segPts_subset_boundingBox s
  have t2 := region_box hp.1
  obtain ⟨F, hF⟩ := region_filter (A := [s]) (l := mp.polygons) single_box hp.1
  unfold intersectSegmentWithMultipolygon
  simp only
  by_cases k1 : doBoxesHaveNoCommonContinuum s.boundingBox mp.boundingBox = true
  · rw [if_pos k1]
    exact inter_empty (finite_inter_boxes t1 t2 k1)
  rw [if_neg k1]
  by_cases k2 : mp.polygons.filter (fun p => doBoxesHaveCommonContinuum p.boundingBox s.boundingBox) = []
  · rw [if_pos k2]
    refine inter_empty ⟨F, fun q hq z => ?_⟩
    have := (hF q hq (by rw [segsPts_single]; exact z.1)).mp z.2
    rw [k2] at this
    obtain ⟨r, hr, _⟩ := this
    cases hr
  rw [if_neg k2]
  have hv := validPolygons_filter hp fun p => doBoxesHaveCommonContinuum p.boundingBox s.boundingBox
  have := inter_collect (A := [s]) (C1 := [s]) (l := mp.polygons)
    (C2 := mp.polygons.filter fun p => doBoxesHaveCommonContinuum p.boundingBox s.boundingBox) (noOverlap_single hs)
    hv ⟨F, fun q hq => and_congr_right fun z => hF q hq z⟩ single_x (polygons_x hv) (Or.inl ⟨rfl, rfl, rfl⟩)
  obtain ⟨r, hr⟩ := List.exists_mem_of_ne_nil _ k2
  have hr' := List.mem_filter.mp hr
  have kr : ¬ doBoxesHaveNoCommonContinuum r.boundingBox s.boundingBox = true := by
    rw [continuum_compl] at hr'; simpa using hr'.2
  obtain ⟨m1, m2⟩ := ranges_meet kr
  have l1 := listMin_le (List.mem_map_of_mem (f := fun p : Polygon => p.boundingBox.minX) hr)
  have l2 := le_listMax (List.mem_map_of_mem (f := fun p : Polygon => p.boundingBox.maxX) hr)
  rw [single_meets_box (l1.trans m1) (m2.trans l2), segsPts_single] at this
  exact this

/-- C48 `multipolygon & segment`. -/
theorem C48_multipolygon_segment (hs : s.start ≠ s.end) (hp : ValidPolygons mp.polygons) :
    ∃ g, intersectMultipolygonWithSegment mp s = .ok g ∧ LinearResult g ∧
      linPts g = reg (segPts s ∩ regionPts mp.polygons) ∧ FullyNoded (geomSegs g) := by
  have t1 := segPts_subset_boundingBox s
  have t2 := region_box hp.1
  obtain ⟨F, hF⟩ := region_filter (A := [s]) (l := mp.polygons) single_box hp.1
  unfold intersectMultipolygonWithSegment
  simp only
  by_cases k1 : doBoxesHaveNoCommonContinuum mp.boundingBox s.boundingBox = true
  · rw [if_pos k1, Set.inter_comm]
    exact inter_empty (finite_inter_boxes t2 t1 k1)
  rw [if_neg k1]
  by_cases k2 : mp.polygons.filter (fun p => doBoxesHaveCommonContinuum p.boundingBox s.boundingBox) = []
  · rw [if_pos k2]
    refine inter_empty ⟨F, fun q hq z => ?_⟩
    have := (hF q hq (by rw [segsPts_single]; exact z.1)).mp z.2
    rw [k2] at this
    obtain ⟨r, hr, _⟩ := this
    cases hr
  rw [if_neg k2, max_comm, min_comm]
  have hv := validPolygons_filter hp fun p => doBoxesHaveCommonContinuum p.boundingBox s.boundingBox
  have := inter_collect (A := [s]) (C1 := [s]) (l := mp.polygons)
    (C2 := mp.polygons.filter fun p => doBoxesHaveCommonContinuum p.boundingBox s.boundingBox) (noOverlap_single hs)
    hv ⟨F, fun q hq => and_congr_right fun z => hF q hq z⟩ single_x (polygons_x hv) (Or.inr ⟨rfl, rfl, rfl⟩)
  obtain ⟨r, hr⟩ := List.exists_mem_of_ne_nil _ k2
  have hr' := List.mem_filter.mp hr
  have kr : ¬ doBoxesHaveNoCommonContinuum r.boundingBox s.boundingBox = true := by
    rw [continuum_compl] at hr'; simpa using hr'.2
  obtain ⟨m1, m2⟩ := ranges_meet kr
  have l1 := listMin_le (List.mem_map_of_mem (f := fun p : Polygon => p.boundingBox.minX) hr)
  have l2 := le_listMax (List.mem_map_of_mem (f := fun p : Polygon => p.boundingBox.maxX) hr)
  rw [single_meets_box (l1.trans m1) (m2.trans l2), segsPts_single] at this
  exact this

/-- Both filters. -/
theorem both_filters {A : List Segment} {l : List Polygon} {a b : Box} (h1 : segsPts A ⊆ boxPts a)
    (hl : ∀ p ∈ l, ValidPolygon p) (h2 : regionPts l ⊆ boxPts b) : ∃ F : List Point, ∀ q ∉ F,
      (q ∈ segsPts A ∧ q ∈ regionPts l ↔
        q ∈ segsPts (A.filter fun s => doBoxesHaveCommonContinuum s.boundingBox b) ∧
        q ∈ regionPts (l.filter fun p => doBoxesHaveCommonContinuum p.boundingBox a)) := by
  obtain ⟨F1, f1⟩ := segments_filter (A := A) h2
  obtain ⟨F2, f2⟩ := region_filter h1 hl
  refine ⟨F1 ++ F2, fun q hq => ?_⟩
  rw [List.mem_append, not_or] at hq
  constructor
  · rintro ⟨u, v⟩
    exact ⟨(f1 q hq.1 v).mp u, (f2 q hq.2 u).mp v⟩
  · rintro ⟨u, v⟩
    have u' := segsPts_filter_sub _ _ u
    exact ⟨u', (f2 q hq.2 u').mpr v⟩

/-- C48 `multisegmental & multipolygon`. -/
theorem C48_multisegmental_multipolygon (hc : Constructed m) (hm : NoOverlap m.segments)
    (hp : ValidPolygons mp.polygons) :
    ∃ g, intersectMultisegmentalWithMultipolygon m mp = .ok g ∧ LinearResult g ∧
      linPts g = reg (segsPts m.segments ∩ regionPts mp.polygons) ∧ FullyNoded (geomSegs g) := by
  have t1 := (multisegmental_tight hc).1
  have t2 := region_box hp.1
  obtain ⟨F, hF⟩ := both_filters t1 hp.1 t2
  unfold intersectMultisegmentalWithMultipolygon
  simp only
  by_cases k1 : doBoxesHaveNoCommonContinuum m.boundingBox mp.boundingBox = true
  · rw [if_pos k1]
    exact inter_empty (finite_inter_boxes t1 t2 k1)
  rw [if_neg k1]
  by_cases k2 : m.segments.filter (fun s => doBoxesHaveCommonContinuum s.boundingBox mp.boundingBox) = []
  · rw [if_pos k2]
    refine inter_empty ⟨F, fun q hq z => ?_⟩
    have := ((hF q hq).mp z).1
    rw [k2, segsPts_nil] at this
    exact this
  rw [if_neg k2]
  by_cases k3 : mp.polygons.filter (fun p => doBoxesHaveCommonContinuum p.boundingBox m.boundingBox) = []
  · rw [if_pos k3]
    refine inter_empty ⟨F, fun q hq z => ?_⟩
    obtain ⟨r, hr, _⟩ := ((hF q hq).mp z).2
    rw [k3] at hr
    cases hr
  rw [if_neg k3]
  have hv := validPolygons_filter hp fun p => doBoxesHaveCommonContinuum p.boundingBox m.boundingBox
  exact inter_collect (noOverlap_filter hm _) hv ⟨F, hF⟩ list_x (polygons_x hv) (Or.inl ⟨rfl, rfl, rfl⟩)

/-- C48 `multipolygon & multisegmental`. -/
theorem C48_multipolygon_multisegmental (hc : Constructed m) (hm : NoOverlap m.segments)
    (hp : ValidPolygons mp.polygons) :
    ∃ g, intersectMultipolygonWithMultisegmental mp m = .ok g ∧ LinearResult g ∧
      linPts g = reg (segsPts m.segments ∩ regionPts mp.polygons) ∧ FullyNoded (geomSegs g) := by
  have t1 := (multisegmental_tight hc).1
  have t2 := region_box hp.1
  obtain ⟨F, hF⟩ := both_filters t1 hp.1 t2
  unfold intersectMultipolygonWithMultisegmental
  simp only
  by_cases k1 : doBoxesHaveNoCommonContinuum mp.boundingBox m.boundingBox = true
  · rw [if_pos k1, Set.inter_comm]
    exact inter_empty (finite_inter_boxes t2 t1 k1)
  rw [if_neg k1]
  by_cases k3 : mp.polygons.filter (fun p => doBoxesHaveCommonContinuum p.boundingBox m.boundingBox) = []
  · rw [if_pos k3]
    refine inter_empty ⟨F, fun q hq z => ?_⟩
    obtain ⟨r, hr, _⟩ := ((hF q hq).mp z).2
    rw [k3] at hr
    cases hr
  rw [if_neg k3]
  by_cases k2 : m.segments.filter (fun s => doBoxesHaveCommonContinuum s.boundingBox mp.boundingBox) = []
  · rw [if_pos k2]
    refine inter_empty ⟨F, fun q hq z => ?_⟩
    have := ((hF q hq).mp z).1
    rw [k2, segsPts_nil] at this
    exact this
  rw [if_neg k2, max_comm, min_comm]
  have hv := validPolygons_filter hp fun p => doBoxesHaveCommonContinuum p.boundingBox m.boundingBox
  exact inter_collect (noOverlap_filter hm _) hv ⟨F, hF⟩ list_x (polygons_x hv) (Or.inr ⟨rfl, rfl, rfl⟩)

/-! ### Differences -/


theorem interior_in_box {c : Contour} (hc : 3 ≤ c.vertices.length) {q : Point}
    (h : locatePointInRegion c q = .interior) : c.boundingBox.minX < q.x ∧ q.x < c.boundingBox.maxX ∧
      c.boundingBox.minY < q.y ∧ q.y < c.boundingBox.maxY := by
  have ht := (contour_tight c (by intro e; simp [e] at hc)).1
  have hq : q ∉ contourPts c := by
    intro k
    rw [locatePointInRegion_of_mem k] at h; cases h
  have key : ∀ dx dy : ℚ, (∀ r ∈ seg q ⟨q.x + dx, q.y + dy⟩, r ∈ contourPts c → r = q) →
      (⟨q.x + dx, q.y + dy⟩ : Point) ∈ boxPts c.boundingBox := by
    intro dx dy hr
    by_contra k
    refine C23_interior_is_enclosed c hc q h _ k (Relation.ReflTransGen.single ?_)
    rw [Set.disjoint_left]
    intro r h1 h2
    exact hq (hr r h1 h2 ▸ h2)
  have line : ∀ dx dy : ℚ, ∀ r ∈ seg q ⟨q.x + dx, q.y + dy⟩, ∃ t : ℚ, 0 ≤ t ∧ r.x = q.x + t * dx ∧ r.y = q.y + t * dy := by
    rintro dx dy r ⟨t, t0, _, rfl⟩
    exact ⟨t, t0, by simp [lerp], by simp [lerp]⟩
  refine ⟨?_, ?_, ?_, ?_⟩
  · by_contra z
    have := mem_boxPts.mp (key (-1) 0 fun r hr hc => ?_)
    · simp only at this; linarith
    · obtain ⟨t, t0, e1, e2⟩ := line _ _ r hr
      have := (mem_boxPts.mp (ht hc)).1
      have : t = 0 := by linarith
      subst this
      apply Point.ext' <;> linarith
  · by_contra z
    have := mem_boxPts.mp (key 1 0 fun r hr hc => ?_)
    · simp only at this; linarith
    · obtain ⟨t, t0, e1, e2⟩ := line _ _ r hr
      have := (mem_boxPts.mp (ht hc)).2.1
      have : t = 0 := by linarith
      subst this
      apply Point.ext' <;> linarith
  · by_contra z
    have := mem_boxPts.mp (key 0 (-1) fun r hr hc => ?_)
    · simp only at this; linarith
    · obtain ⟨t, t0, e1, e2⟩ := line _ _ r hr
      have := (mem_boxPts.mp (ht hc)).2.2.1
      have : t = 0 := by linarith
      subst this
      apply Point.ext' <;> linarith
  · by_contra z
    have := mem_boxPts.mp (key 0 1 fun r hr hc => ?_)
    · simp only at this; linarith
    · obtain ⟨t, t0, e1, e2⟩ := line _ _ r hr
      have := (mem_boxPts.mp (ht hc)).2.2.2
      have : t = 0 := by linarith
      subst this
      apply Point.ext' <;> linarith

theorem noCommonArea_iff {a b : Box} : doBoxesHaveNoCommonArea a b = true →
    a.maxX ≤ b.minX ∨ a.maxY ≤ b.minY ∨ b.maxX ≤ a.minX ∨ b.maxY ≤ a.minY := by
  intro h
  simp only [doBoxesHaveNoCommonArea, Box.disjointWith, Box.touches, Bool.or_eq_true, decide_eq_true_eq] at h
  grind

theorem polygon_inner {p : Polygon} {q : Point} (h : p.locate q = .interior) :
    locatePointInRegion p.border q = .interior := ((C24_polygon_locate p q).1.mp h).1

theorem inside_strict {p : Polygon} (hp : ValidPolygon p) {q : Point} (h : p.locate q = .interior) :
    p.boundingBox.minX < q.x ∧ q.x < p.boundingBox.maxX ∧ p.boundingBox.minY < q.y ∧ q.y < p.boundingBox.maxY :=
  interior_in_box (hp.1 p.border (by simp [polygonContours])).1 (polygon_inner h)

theorem insides_strict {mp : Multipolygon} (hp : ∀ p ∈ mp.polygons, ValidPolygon p) {q : Point}
    (h : q ∈ insidePts mp.polygons) : mp.boundingBox.minX < q.x ∧ q.x < mp.boundingBox.maxX ∧
      mp.boundingBox.minY < q.y ∧ q.y < mp.boundingBox.maxY := by
  obtain ⟨p, hpm, hq⟩ := h
  obtain ⟨h1, h2, h3, h4⟩ := inside_strict (hp p hpm) hq
  have sub : boxPts p.boundingBox ⊆ boxPts mp.boundingBox := by
    unfold Multipolygon.boundingBox
    rcases hm : mp.polygons with _ | ⟨a, l⟩
    · rw [hm] at hpm; cases hpm
    · rw [hm] at hpm
      refine mergeBoxes_sub _ _ p.boundingBox ?_
      rcases List.mem_cons.mp hpm with rfl | k
      · exact List.mem_cons_self
      · exact List.mem_cons_of_mem _ (List.mem_map_of_mem k)
  have b1 : (⟨p.boundingBox.minX, p.boundingBox.minY⟩ : Point) ∈ boxPts p.boundingBox :=
    mem_boxPts.mpr ⟨le_rfl, by simp only; linarith, le_rfl, by simp only; linarith⟩
  have b2 : (⟨p.boundingBox.maxX, p.boundingBox.maxY⟩ : Point) ∈ boxPts p.boundingBox :=
    mem_boxPts.mpr ⟨by simp only; linarith, le_rfl, by simp only; linarith, le_rfl⟩
  have c1 := mem_boxPts.mp (sub b1)
  have c2 := mem_boxPts.mp (sub b2)
  simp only at c1 c2
  exact ⟨by linarith, by linarith, by linarith, by linarith⟩

/-- Boxes without common area: no inner points. -/
theorem noCommonArea_inner {S : Set Point} {a b : Box} (hS : S ⊆ boxPts a)
    (h : doBoxesHaveNoCommonArea a b = true) {q : Point} (hq : q ∈ S) :
    ¬ (b.minX < q.x ∧ q.x < b.maxX ∧ b.minY < q.y ∧ q.y < b.maxY) := by
  rintro ⟨h1, h2, h3, h4⟩
  have := mem_boxPts.mp (hS hq)
  rcases noCommonArea_iff h with k | k | k | k <;> linarith [this.1, this.2.1, this.2.2.1, this.2.2.2]

theorem inside_sub_region {l : List Polygon} : insidePts l ⊆ regionPts l := by
  rintro q ⟨p, hp, h⟩
  exact ⟨p, hp, by show p.locate q ≠ .exterior; rw [h]; simp⟩

theorem diff_collect {A : List Segment} {l C2 : List Polygon} {b : Box} {a0 a1 : ℚ} (hA : NoOverlap A)
    (hv : ValidPolygons C2) (hb : regionPts l ⊆ boxPts b)
    (hF : ∃ F : List Point, ∀ q ∉ F, q ∈ segsPts A → (q ∈ regionPts l ↔ q ∈ regionPts C2))
    (ha : ∀ s ∈ A.filter (fun s => doBoxesHaveCommonContinuum s.boundingBox b),
      a0 ≤ s.boundingBox.minX ∧ s.boundingBox.maxX ≤ a1) :
    ∃ g, collectMaybeEmptySegments (MixOp.linearShapedDifference.run (fun p => decide (p.x > a1)) (fun _ => true)
        (A.filter fun s => doBoxesHaveCommonContinuum s.boundingBox b)
        ((edgesOf C2).filter fun s => s.meetsRange a0 a1) ++
        A.filter fun s => !doBoxesHaveCommonContinuum s.boundingBox b) = .ok g ∧
      LinearResult g ∧ linPts g = reg (segsPts A \ regionPts l) ∧
      ∃ P D, (geomSegs g).Perm (P ++ P.map Segment.reverse ++ D) ∧ D.Sublist A ∧
        NoOverlap (P ++ D) ∧ (WellJoined A → WellJoined (P ++ D)) := by
  have hC := noOverlap_filter hA fun s => doBoxesHaveCommonContinuum s.boundingBox b
  obtain ⟨P, k1, k2, k3, F, k4⟩ := mixed_difference hC hv (a := a0) (b := a1)
    (fun s hs => by rw [← segment_minX]; exact (ha s hs).1) (fun s hs => by rw [← segment_maxX]; exact (ha s hs).2)
  obtain ⟨g, e, hg, hl⟩ := collectMaybe_spec' (MixOp.linearShapedDifference.run (fun p => decide (p.x > a1))
    (fun _ => true) (A.filter fun s => doBoxesHaveCommonContinuum s.boundingBox b)
    ((edgesOf C2).filter fun s => s.meetsRange a0 a1) ++
    A.filter fun s => !doBoxesHaveCommonContinuum s.boundingBox b)
  refine ⟨g, e, hg, ?_, P, A.filter fun s => !doBoxesHaveCommonContinuum s.boundingBox b, ?_, List.filter_sublist, ?_⟩
  · unfold linPts
    rw [hl]
    obtain ⟨F1, f1⟩ := hF
    obtain ⟨F2, f2⟩ := segments_filter (A := A) hb
    have hnd : ∀ s ∈ P ++ A.filter (fun s => !doBoxesHaveCommonContinuum s.boundingBox b), s.start ≠ s.end := by
      intro s hs
      rcases List.mem_append.mp hs with k | k
      · exact k2.1 s k
      · exact hA.1 s (List.mem_filter.mp k).1
    have pts : segsPts (MixOp.linearShapedDifference.run (fun p => decide (p.x > a1))
        (fun _ => true) (A.filter fun s => doBoxesHaveCommonContinuum s.boundingBox b)
        ((edgesOf C2).filter fun s => s.meetsRange a0 a1) ++
        A.filter fun s => !doBoxesHaveCommonContinuum s.boundingBox b) =
        segsPts (P ++ A.filter fun s => !doBoxesHaveCommonContinuum s.boundingBox b) := by
      rw [segsPts_append, segsPts_append, segsPts_perm k1, segsPts_append, segsPts_map_reverse, Set.union_self]
    rw [pts]
    obtain ⟨F3, f3⟩ := exceptional_box
      (l := A.filter fun s => !doBoxesHaveCommonContinuum s.boundingBox b) (T := regionPts l) (by
        intro s hs
        rw [List.mem_filter] at hs
        exact atMostOne_mono (Set.inter_subset_inter (segPts_subset_boundingBox s) hb)
          (atMostOne_of_noCommonContinuum (noCommon_true (by simpa using hs.2))))
    have pA := fun q => segsPts_parts A (fun s => doBoxesHaveCommonContinuum s.boundingBox b) q
    refine reg_eq_of_finite hnd (F ++ F1 ++ F3) ?_ ?_
    · intro q hq hqF
      simp only [List.mem_append, not_or] at hqF
      rw [segsPts_append] at hq
      rcases hq with hq | hq
      · obtain ⟨h1, h2⟩ := (k4 q hqF.1.1).mp hq
        have hqA := segsPts_filter_sub _ _ h1
        exact ⟨hqA, fun z => h2 ((f1 q hqF.1.2 hqA).mp z)⟩
      · exact ⟨segsPts_filter_sub _ _ hq, f3 q hqF.2 hq⟩
    · rintro q ⟨hq, hn⟩ hqF
      simp only [List.mem_append, not_or] at hqF
      rw [segsPts_append]
      rcases (pA q).mp hq with k | k
      · exact Or.inl ((k4 q hqF.1.1).mpr ⟨k, fun z => hn ((f1 q hqF.1.2 hq).mpr z)⟩)
      · exact Or.inr k
  · rw [hl]; exact k1.append_right _
  · have main : ∀ Q, Sep Q → A.Pairwise Q →
        (P ++ A.filter fun s => !doBoxesHaveCommonContinuum s.boundingBox b).Pairwise Q := by
      intro Q hQ pA
      rw [List.pairwise_append]
      refine ⟨k2.2.imp_of_mem fun hs _ h => hQ.noded (k2.1 _ hs) h, pA.filter _, fun r hr d hd => ?_⟩
      obtain ⟨t, ht, hsub⟩ := k3 r hr
      exact hQ.mono (pairwise_parts hQ pA _ t ht d hd) (k2.1 r hr) (hA.1 d (List.mem_filter.mp hd).1) hsub
        (fun _ h => h)
    have hnd : ∀ s ∈ P ++ A.filter (fun s => !doBoxesHaveCommonContinuum s.boundingBox b), s.start ≠ s.end := by
      intro s hs
      rcases List.mem_append.mp hs with k | k
      · exact k2.1 s k
      · exact hA.1 s (List.mem_filter.mp k).1
    exact ⟨⟨hnd, main _ sep_apart hA.2⟩, fun w => ⟨hnd, main _ sep_joined w.2⟩⟩

/-- Nothing is removed when only finitely many points are shared. -/
theorem reg_diff_region {A : List Segment} (hA : ∀ s ∈ A, s.start ≠ s.end) {S : Set Point}
    (h : ∃ F : List Point, ∀ q ∉ F, q ∉ segsPts A ∩ S) : segsPts A = reg (segsPts A \ S) := by
  obtain ⟨F, hF⟩ := h
  exact reg_eq_of_finite hA F (fun q hq hn => ⟨hq, fun z => hF q hn ⟨hq, z⟩⟩) (fun q hq _ => hq.1)

/-- C49 `multisegmental - polygon`.  When the bounding boxes have no common area, the minuend has no point inside
of the polygon and is returned unchanged (so that pieces along the border stay, see C41).  Otherwise the result is
the regularised difference of the minuend and the closed region: either the unchanged minuend, or pieces, each of
them listed twice, in both directions, and components of the minuend. -/
theorem C49_multisegmental_polygon (hc : Constructed m) (hm : NoOverlap m.segments) (hp : ValidPolygon p) :
    ∃ g, subtractPolygonFromMultisegmental m p = .ok g ∧
      (doBoxesHaveNoCommonArea m.boundingBox p.boundingBox = true →
        g = m.toGeom ∧ ∀ q ∈ segsPts m.segments, p.locate q ≠ .interior) ∧
      (doBoxesHaveNoCommonArea m.boundingBox p.boundingBox = false →
        linPts g = reg (segsPts m.segments \ polygonPts p) ∧
        (g = m.toGeom ∨ LinearResult g ∧ ∃ P D, (geomSegs g).Perm (P ++ P.map Segment.reverse ++ D) ∧
          D.Sublist m.segments ∧ NoOverlap (P ++ D) ∧ (WellJoined m.segments → WellJoined (P ++ D)))) := by
  have t1 := (multisegmental_tight hc).1
  have t2 := validPolygon_box hp
  unfold subtractPolygonFromMultisegmental
  simp only
  by_cases k1 : doBoxesHaveNoCommonArea m.boundingBox p.boundingBox = true
  · rw [if_pos k1, k1]
    refine ⟨_, rfl, fun _ => ⟨rfl, fun q hq hi' => noCommonArea_inner t1 k1 hq (inside_strict hp hi')⟩, fun h => ?_⟩
    cases h
  rw [if_neg k1, Bool.eq_false_iff.mpr k1]
  have skip : ∀ {X : Prop}, false = true → X := fun h => by cases h
  by_cases k2 : m.segments.filter (fun s => doBoxesHaveCommonContinuum s.boundingBox p.boundingBox) = []
  · rw [if_pos k2]
    refine ⟨_, rfl, skip, fun _ => ⟨?_, Or.inl rfl⟩⟩
    unfold linPts; rw [geomSegs_toGeom]
    obtain ⟨F, hF⟩ := segments_filter (A := m.segments) t2
    refine reg_diff_region hm.1 ⟨F, fun q hq z => ?_⟩
    have := (hF q hq z.2).mp z.1
    rw [k2, segsPts_nil] at this
    exact this
  rw [if_neg k2]
  obtain ⟨g, e, r1, r2, r3⟩ := diff_collect (l := [p]) (C2 := [p]) hm (validPolygons_single hp)
    (by rw [regionPts_single]; exact t2) ⟨[], fun q _ _ => Iff.rfl⟩ list_x
  rw [edgesOf_single] at e
  rw [regionPts_single] at r2
  exact ⟨g, e, skip, fun _ => ⟨r2, Or.inr ⟨r1, r3⟩⟩⟩

/-- C49 `multisegmental - multipolygon`. -/
theorem C49_multisegmental_multipolygon (hc : Constructed m) (hm : NoOverlap m.segments)
    (hp : ValidPolygons mp.polygons) :
    ∃ g, subtractMultipolygonFromMultisegmental m mp = .ok g ∧
      (doBoxesHaveNoCommonArea m.boundingBox mp.boundingBox = true →
        g = m.toGeom ∧ ∀ q ∈ segsPts m.segments, ∀ p ∈ mp.polygons, p.locate q ≠ .interior) ∧
      (doBoxesHaveNoCommonArea m.boundingBox mp.boundingBox = false →
        linPts g = reg (segsPts m.segments \ regionPts mp.polygons) ∧
        (g = m.toGeom ∨ LinearResult g ∧ ∃ P D, (geomSegs g).Perm (P ++ P.map Segment.reverse ++ D) ∧
          D.Sublist m.segments ∧ NoOverlap (P ++ D) ∧ (WellJoined m.segments → WellJoined (P ++ D)))) := by
  have t1 := (multisegmental_tight hc).1
  have t2 := region_box hp.1
  unfold subtractMultipolygonFromMultisegmental
  simp only
  by_cases k1 : doBoxesHaveNoCommonArea m.boundingBox mp.boundingBox = true
  · rw [if_pos k1, k1]
    refine ⟨_, rfl, fun _ => ⟨rfl, fun q hq p hpm hi' =>
      noCommonArea_inner t1 k1 hq (insides_strict hp.1 ⟨p, hpm, hi'⟩)⟩, fun h => ?_⟩
    cases h
  rw [if_neg k1, Bool.eq_false_iff.mpr k1]
  have skip : ∀ {X : Prop}, false = true → X := fun h => by cases h
  by_cases k2 : m.segments.filter (fun s => doBoxesHaveCommonContinuum s.boundingBox mp.boundingBox) = []
  · rw [if_pos k2]
    refine ⟨_, rfl, skip, fun _ => ⟨?_, Or.inl rfl⟩⟩
    unfold linPts; rw [geomSegs_toGeom]
    obtain ⟨F, hF⟩ := segments_filter (A := m.segments) t2
    refine reg_diff_region hm.1 ⟨F, fun q hq z => ?_⟩
    have := (hF q hq z.2).mp z.1
    rw [k2, segsPts_nil] at this
    exact this
  rw [if_neg k2]
  obtain ⟨F, hF⟩ := region_filter t1 hp.1
  by_cases k3 : mp.polygons.filter (fun p => doBoxesHaveCommonContinuum p.boundingBox m.boundingBox) = []
  · rw [if_pos k3]
    refine ⟨_, rfl, skip, fun _ => ⟨?_, Or.inl rfl⟩⟩
    unfold linPts; rw [geomSegs_toGeom]
    refine reg_diff_region hm.1 ⟨F, fun q hq z => ?_⟩
    have := (hF q hq z.1).mp z.2
    rw [k3] at this
    obtain ⟨r, hr, _⟩ := this
    cases hr
  rw [if_neg k3]
  obtain ⟨g, e, r1, r2, r3⟩ := diff_collect hm
    (validPolygons_filter hp fun p => doBoxesHaveCommonContinuum p.boundingBox m.boundingBox) t2 ⟨F, hF⟩ list_x
  exact ⟨g, e, skip, fun _ => ⟨r2, Or.inr ⟨r1, r3⟩⟩⟩

/-- C49 the function behind `segment - polygon`. -/
theorem C49_segment_polygon (hs : s.start ≠ s.end) (hp : ValidPolygon p) :
    ∃ g, subtractPolygonFromSegment s p = .ok g ∧
      (doBoxesHaveNoCommonArea s.boundingBox p.boundingBox = true →
        g = .segment s ∧ ∀ q ∈ segPts s, p.locate q ≠ .interior) ∧
      (doBoxesHaveNoCommonArea s.boundingBox p.boundingBox = false →
        linPts g = reg (segPts s \ polygonPts p) ∧ LinearResult g ∧
        ∃ P, (geomSegs g).Perm (P ++ P.map Segment.reverse) ∧ FullyNoded P) := by
  have t2 := validPolygon_box hp
  unfold subtractPolygonFromSegment
  simp only
  by_cases k1 : doBoxesHaveNoCommonArea s.boundingBox p.boundingBox = true
  · rw [if_pos k1, k1]
    refine ⟨_, rfl, fun _ => ⟨rfl, fun q hq hi' =>
      noCommonArea_inner (segPts_subset_boundingBox s) k1 hq (inside_strict hp hi')⟩, fun h => ?_⟩
    cases h
  rw [if_neg k1, Bool.eq_false_iff.mpr k1]
  have skip : ∀ {X : Prop}, false = true → X := fun h => by cases h
  obtain ⟨P, q1, q2, _, F, q4⟩ := mixed_difference (noOverlap_single hs) (validPolygons_single hp)
    (a := s.boundingBox.minX) (b := s.boundingBox.maxX)
    (fun t ht => by rw [List.mem_singleton.mp ht, segment_minX])
    (fun t ht => by rw [List.mem_singleton.mp ht, segment_maxX])
  obtain ⟨g, e, hg, hl⟩ := collectMaybe_spec' (MixOp.linearShapedDifference.run
    (fun p => decide (p.x > s.boundingBox.maxX)) (fun _ => true) [s]
    ((edgesOf [p]).filter fun t => t.meetsRange s.boundingBox.minX s.boundingBox.maxX))
  rw [edgesOf_single] at e
  refine ⟨g, e, skip, fun _ => ⟨?_, hg, P, ?_, q2⟩⟩
  · unfold linPts
    rw [hl, segsPts_perm q1, segsPts_append, segsPts_map_reverse, Set.union_self]
    refine reg_eq_of_finite q2.1 F ?_ ?_
    · intro q hq hqF
      obtain ⟨h1, h2⟩ := (q4 q hqF).mp hq
      rw [segsPts_single] at h1
      rw [regionPts_single] at h2
      exact ⟨h1, h2⟩
    · rintro q ⟨h1, h2⟩ hqF
      refine (q4 q hqF).mpr ⟨?_, ?_⟩
      · rw [segsPts_single]; exact h1
      · rw [regionPts_single]; exact h2
  · rw [hl]; exact q1

/-- C49 the function behind `segment - multipolygon`. -/
theorem C49_segment_multipolygon (hs : s.start ≠ s.end) (hp : ValidPolygons mp.polygons) :
    ∃ g, subtractMultipolygonFromSegment s mp = .ok g ∧
      (doBoxesHaveNoCommonArea s.boundingBox mp.boundingBox = true →
        g = .segment s ∧ ∀ q ∈ segPts s, ∀ p ∈ mp.polygons, p.locate q ≠ .interior) ∧
      (doBoxesHaveNoCommonArea s.boundingBox mp.boundingBox = false →
        linPts g = reg (segPts s \ regionPts mp.polygons) ∧ LinearResult g ∧
        (g = .segment s ∨ ∃ P, (geomSegs g).Perm (P ++ P.map Segment.reverse) ∧ FullyNoded P)) := by
  have t2 := region_box hp.1
  unfold subtractMultipolygonFromSegment
  simp only
  by_cases k1 : doBoxesHaveNoCommonArea s.boundingBox mp.boundingBox = true
  · rw [if_pos k1, k1]
    refine ⟨_, rfl, fun _ => ⟨rfl, fun q hq p hpm hi' =>
      noCommonArea_inner (segPts_subset_boundingBox s) k1 hq (insides_strict hp.1 ⟨p, hpm, hi'⟩)⟩, fun h => ?_⟩
    cases h
  rw [if_neg k1, Bool.eq_false_iff.mpr k1]
  have skip : ∀ {X : Prop}, false = true → X := fun h => by cases h
  obtain ⟨F', hF'⟩ := region_filter (A := [s]) (l := mp.polygons) single_box hp.1
  by_cases k3 : mp.polygons.filter (fun p => doBoxesHaveCommonContinuum p.boundingBox s.boundingBox) = []
  · rw [if_pos k3]
    refine ⟨_, rfl, skip, fun _ => ⟨?_, Or.inr (Or.inl ⟨_, rfl⟩), Or.inl rfl⟩⟩
    have := reg_diff_region (A := [s]) (S := regionPts mp.polygons) (noOverlap_single hs).1
      ⟨F', fun q hq z => by
        have := (hF' q hq z.1).mp z.2
        rw [k3] at this
        obtain ⟨r, hr, _⟩ := this
        cases hr⟩
    rw [← segsPts_single]; exact this
  rw [if_neg k3]
  obtain ⟨P, q1, q2, _, F, q4⟩ := mixed_difference (noOverlap_single hs)
    (validPolygons_filter hp fun p => doBoxesHaveCommonContinuum p.boundingBox s.boundingBox)
    (a := s.boundingBox.minX) (b := s.boundingBox.maxX)
    (fun t ht => by rw [List.mem_singleton.mp ht, segment_minX])
    (fun t ht => by rw [List.mem_singleton.mp ht, segment_maxX])
  obtain ⟨g, e, hg, hl⟩ := collectMaybe_spec' (MixOp.linearShapedDifference.run
    (fun p => decide (p.x > s.boundingBox.maxX)) (fun _ => true) [s]
    ((edgesOf (mp.polygons.filter fun p => doBoxesHaveCommonContinuum p.boundingBox s.boundingBox)).filter
      fun t => t.meetsRange s.boundingBox.minX s.boundingBox.maxX))
  refine ⟨g, e, skip, fun _ => ⟨?_, hg, Or.inr ⟨P, ?_, q2⟩⟩⟩
  · unfold linPts
    rw [hl, segsPts_perm q1, segsPts_append, segsPts_map_reverse, Set.union_self]
    refine reg_eq_of_finite q2.1 (F ++ F') ?_ ?_
    · intro q hq hqF
      rw [List.mem_append, not_or] at hqF
      obtain ⟨h1, h2⟩ := (q4 q hqF.1).mp hq
      refine ⟨by rw [segsPts_single] at h1; exact h1, fun z => h2 ((hF' q hqF.2 h1).mp z)⟩
    · rintro q ⟨h1, h2⟩ hqF
      rw [List.mem_append, not_or] at hqF
      have h1' : q ∈ segsPts [s] := by rw [segsPts_single]; exact h1
      exact (q4 q hqF.1).mpr ⟨h1', fun z => h2 ((hF' q hqF.2 h1').mpr z)⟩
  · rw [hl]; exact q1

end
end Rene
