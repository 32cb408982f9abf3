import Verif.Lemmas.ShapedOps

/-! The cores of the operations on polygons: what the dispatch functions do after their checks of boxes. -/

namespace Rene
open Spec Sweep

theorem run_nil (op : ShpOp) (stop : Point → Bool) : op.run stop [] [] = .ok [] := by
  cases op <;> rfl

theorem listMax_mem {l : List ℚ} (h : l ≠ []) : listMax l ∈ l := by
  cases l with
  | nil => exact absurd rfl h
  | cons a l =>
    show l.foldl max a ∈ a :: l
    clear h
    induction l generalizing a with
    | nil => exact List.mem_singleton.mpr rfl
    | cons b l ih =>
      rw [List.foldl_cons]
      rcases List.mem_cons.mp (ih (max a b)) with k | k
      · rw [k]
        rcases max_choice a b with e | e <;> rw [e] <;> simp
      · simp [k]

/-! ### Ranges -/

/-- The range of the edges of polygons. -/
structure Range (l : List Polygon) (a b : ℚ) : Prop where
  least : ∀ s ∈ edgesOf l, a ≤ (lo s).x
  most : ∀ s ∈ edgesOf l, (hi s).x ≤ b
  met : ∃ s ∈ edgesOf l, (hi s).x = b
  inside : ∀ q ∈ insidePts l, a < q.x ∧ q.x < b

theorem lo_mem_x (s : Segment) : lo s ∈ segPts s ∧ hi s ∈ segPts s := by
  rw [segPts_eq]; exact ⟨start_mem_seg _ _, end_mem_seg _ _⟩

theorem x_le_hi {s : Segment} {q : Point} (h : q ∈ segPts s) : q.x ≤ (hi s).x := by
  obtain ⟨t, h0, h1, rfl⟩ := h
  rw [hi_x]
  have := le_max_left s.start.x s.end.x
  have := le_max_right s.start.x s.end.x
  simp only [lerp]
  nlinarith

theorem range_of {l : List Polygon} (hv : ValidPolygons l) (hne : l ≠ []) :
    Range l (listMin (l.map fun p => p.boundingBox.minX)) (listMax (l.map fun p => p.boundingBox.maxX)) := by
  have hx := polygons_x hv
  have mem : ∀ s ∈ edgesOf l, ∀ q ∈ segPts s, q ∈ regionPts l := fun s hs q hq =>
    (mem_region hv q).mpr (Or.inl ⟨s, hs, hq⟩)
  refine ⟨fun s hs => (hx _ (mem s hs _ (lo_mem_x s).1)).1, fun s hs => (hx _ (mem s hs _ (lo_mem_x s).2)).2, ?_, ?_⟩
  · obtain ⟨p, hp, e⟩ := List.mem_map.mp (listMax_mem (l := l.map fun p => p.boundingBox.maxX) (by simpa using hne))
    have h3 : 3 ≤ p.border.vertices.length := ((hv.1 p hp).1 p.border (by simp [polygonContours])).1
    obtain ⟨_, _, ⟨q, hq, eq⟩, _⟩ := contour_tight p.border (by intro e; rw [e] at h3; simp at h3)
    have hq' : q ∈ segsPts (edgesOf l) := by
      rw [segsPts_edges hv.1]
      exact ⟨p.border, List.mem_flatMap.mpr ⟨p, hp, by simp [polygonContours]⟩, hq⟩
    obtain ⟨s, hs, hqs⟩ := hq'
    refine ⟨s, hs, le_antisymm (hx _ (mem s hs _ (lo_mem_x s).2)).2 ?_⟩
    rw [← e]
    show p.border.boundingBox.maxX ≤ _
    rw [← eq]; exact x_le_hi hqs
  · rintro q ⟨p, hp, k⟩
    obtain ⟨b1, b2, _, _⟩ := interior_box (hv.1 p hp) k
    exact ⟨lt_of_le_of_lt (listMin_le (List.mem_map_of_mem (f := fun p : Polygon => p.boundingBox.minX) hp)) b1,
      lt_of_lt_of_le b2 (le_listMax (List.mem_map_of_mem (f := fun p : Polygon => p.boundingBox.maxX) hp))⟩

theorem Range.le {l : List Polygon} {a b : ℚ} (h : Range l a b) : a ≤ b := by
  obtain ⟨s, hs, e⟩ := h.met
  rw [← e]
  exact (h.least s hs).trans (lo_le_hi_x s)

/-- Nothing in common by ranges. -/
theorem ran_disjoint {l1 l2 : List Polygon} {a1 b1 a2 b2 : ℚ} (h1 : Range l1 a1 b1) (h2 : Range l2 a2 b2)
    (h : min b1 b2 < max a1 a2) : Ran .intersection l1 l2 [] := by
  refine ⟨by simp, by simp, by simp, fun X hX _ _ => by simpa using hX, ?_, ?_, by simp, by simp [xorAll],
    fun _ q _ _ => genValid_nil q⟩
  · rintro q ⟨s, hs, _⟩; simp at hs
  · intro q _ _ a b ha hb
    have : ¬ (a = true ∧ b = true) := by
      rintro ⟨ka, kb⟩
      have := h1.inside q (ha.mp ka)
      have := h2.inside q (hb.mp kb)
      rcases min_lt_iff.mp h with k | k <;> rcases lt_max_iff.mp k with k | k <;> linarith
    revert this
    cases a <;> cases b <;> simp [opv, xorAll]

theorem ran_nil (op : ShpOp) : Ran op [] [] [] := by
  refine ⟨by simp, by simp, by simp, fun X hX _ _ => by simpa using hX, ?_, ?_, by simp, by simp [xorAll],
    fun _ q _ _ => genValid_nil q⟩
  · rintro q ⟨s, hs, _⟩; simp at hs
  · intro q _ _ a b ha hb
    have e1 : a = false := by rw [Bool.eq_false_iff]; intro k; obtain ⟨p, hp, _⟩ := ha.mp k; cases hp
    have e2 : b = false := by rw [Bool.eq_false_iff]; intro k; obtain ⟨p, hp, _⟩ := hb.mp k; cases hp
    subst e1 e2
    cases op <;> rfl

/-- The run of a difference. -/
theorem run_difference {l1 l2 : List Polygon} (v1 : ValidPolygons l1) (v2 : ValidPolygons l2) {a b : ℚ} (h : Range l1 a b) :
    ∃ ps, ShpOp.difference.run (fun p => decide (p.x > b)) (edgesOf l1) ((edgesOf l2).filter fun s => s.meetsRange a b) = .ok ps ∧
      Ran .difference l1 l2 ps := by
  have := (plan_range (op := .difference) v1 v2 (a := a) (b := b) (Or.inl ⟨rfl, h.least, h.most, by
    obtain ⟨s, hs, e⟩ := h.met
    exact ⟨s, hs, by rw [e]; exact h.le⟩⟩)).run
  rwa [List.filter_eq_self.mpr fun s hs =>
    meetsRange_iff.mpr ⟨(h.least s hs).trans (lo_le_hi_x s), (lo_le_hi_x s).trans (h.most s hs)⟩] at this

/-- The run of an intersection. -/
theorem run_intersection {l1 l2 : List Polygon} (v1 : ValidPolygons l1) (v2 : ValidPolygons l2) {a1 b1 a2 b2 : ℚ}
    (h1 : Range l1 a1 b1) (h2 : Range l2 a2 b2) :
    ∃ ps, ShpOp.intersection.run (fun p => decide (p.x > min b1 b2))
        ((edgesOf l1).filter fun s => s.meetsRange (max a1 a2) (min b1 b2))
        ((edgesOf l2).filter fun s => s.meetsRange (max a1 a2) (min b1 b2)) = .ok ps ∧
      Ran .intersection l1 l2 ps := by
  by_cases k : min b1 b2 < max a1 a2
  · refine ⟨[], ?_, ran_disjoint h1 h2 k⟩
    rw [List.filter_eq_nil_iff.mpr, List.filter_eq_nil_iff.mpr, run_nil]
    · intro s hs m
      have m := meetsRange_iff.mp m
      have := h2.least s hs; have := h2.most s hs; have := h1.le
      rcases min_lt_iff.mp k with k | k <;> rcases lt_max_iff.mp k with k | k <;> grind
    · intro s hs m
      have m := meetsRange_iff.mp m
      have := h1.least s hs; have := h1.most s hs; have := h2.le
      rcases min_lt_iff.mp k with k | k <;> rcases lt_max_iff.mp k with k | k <;> grind
  · rw [not_lt] at k
    refine (plan_range v1 v2 (Or.inr ⟨rfl, ?_, ?_⟩)).run
    · rcases max_choice a1 a2 with e | e <;> rw [e]
      · exact Or.inl h1.least
      · exact Or.inr h2.least
    · rcases min_choice b1 b2 with e | e <;> rw [e] at k ⊢
      · obtain ⟨s, hs, e⟩ := h1.met
        exact Or.inl ⟨h1.most, s, hs, by rw [e]; exact k⟩
      · obtain ⟨s, hs, e⟩ := h2.met
        exact Or.inr ⟨h2.most, s, hs, by rw [e]; exact k⟩

theorem run_whole {op : ShpOp} (hop : op = .union ∨ op = .symmetricDifference) {l1 l2 : List Polygon} (v1 : ValidPolygons l1)
    (v2 : ValidPolygons l2) (hne : l1 ≠ []) :
    ∃ ps, op.run (fun _ => false) (edgesOf l1) (edgesOf l2) = .ok ps ∧ Ran op l1 l2 ps := by
  refine (plan_whole hop v1 v2 ?_).run
  intro k
  obtain ⟨s, hs, _⟩ := (range_of v1 hne).met
  rw [(List.append_eq_nil_iff.mp k).1] at hs
  cases hs

/-! ### Operands -/

/-- An operand and its box. -/
structure Operand (l : List Polygon) (B : Box) : Prop where
  valid : ValidPolygons l
  inside : ∀ p ∈ l, ∀ q, p.locate q = .interior → q ∈ boxInterior B
  pts : ∀ s ∈ linesOf l, segPts s ⊆ boxPts B

theorem line_box {p : Polygon} (hv : ValidPolygon p) {c : Contour} (hc : c ∈ polygonContours p) {s : Segment} (hs : s ∈ c.segments) :
    segPts s ⊆ boxPts p.boundingBox := fun q hq =>
  validPolygon_box hv (by
    have hb : p.locate q = .boundary := polygon_boundary_of_mem hv (by
      rw [segsPts_of_sets (polygon_sets hv)]
      exact ⟨s, List.mem_flatMap.mpr ⟨c, hc, hs⟩, hq⟩)
    show p.locate q ≠ .exterior
    rw [hb]; decide)

theorem operand_polygon {p : Polygon} (h : ValidPolygon p) : Operand [p] p.boundingBox := by
  refine ⟨validPolygons_single h, ?_, ?_⟩
  · intro r hr q hq
    rw [List.mem_singleton.mp hr] at hq
    exact interior_box h hq
  · intro s hs
    obtain ⟨r, hr, c, hc, k⟩ := mem_lines.mp hs
    rw [List.mem_singleton.mp hr] at hc
    exact line_box h hc k

theorem operand_multi {m : Multipolygon} (h : ValidPolygons m.polygons) : Operand m.polygons m.boundingBox := by
  refine ⟨h, fun p hp q hq => multi_interior hp (h.1 p hp) hq, ?_⟩
  intro s hs q hq
  obtain ⟨r, hr, c, hc, k⟩ := mem_lines.mp hs
  have := mem_boxPts.mp (line_box (h.1 r hr) hc k hq)
  obtain ⟨a1, a2, a3, a4⟩ := multipolygon_le m hr
  exact mem_boxPts.mpr ⟨a1.trans this.1, this.2.1.trans a2, a3.trans this.2.2.1, this.2.2.2.trans a4⟩

section
variable {l1 l2 : List Polygon} {B1 B2 : Box}

theorem areas_apart (O1 : Operand l1 B1) (O2 : Operand l2 B2) {f : Polygon → Bool}
    (hf : ∀ p, f p = true → doBoxesHaveNoCommonArea p.boundingBox B2 = true) :
    ∀ p ∈ l1.filter f, ∀ r ∈ l2, ∀ q, ¬ (p.locate q = .interior ∧ r.locate q = .interior) := by
  intro p hp r hr q ⟨k1, k2⟩
  obtain ⟨hp, k⟩ := List.mem_filter.mp hp
  exact noCommonArea_interiors (hf p k) (interior_box (O1.valid.1 p hp) k1) (O2.inside r hr q k2)

theorem areas_apart' (O1 : Operand l1 B1) (O2 : Operand l2 B2) (h : doBoxesHaveNoCommonArea B1 B2 = true) :
    ∀ p ∈ l1, ∀ r ∈ l2, ∀ q, ¬ (p.locate q = .interior ∧ r.locate q = .interior) := by
  intro p hp r hr q ⟨k1, k2⟩
  exact noCommonArea_interiors h (O1.inside p hp q k1) (O2.inside r hr q k2)

theorem lines_apart (O1 : Operand l1 B1) (O2 : Operand l2 B2) {f : Polygon → Bool}
    (hf : ∀ p, f p = true → doBoxesHaveNoCommonContinuum p.boundingBox B2 = true) :
    ∀ s ∈ linesOf (l1.filter f), ∀ t ∈ linesOf l2, Apart s t := by
  intro s hs t ht
  obtain ⟨p, hp, c, hc, k⟩ := mem_lines.mp hs
  obtain ⟨hp, kf⟩ := List.mem_filter.mp hp
  exact atMostOne_mono (Set.inter_subset_inter (line_box (O1.valid.1 p hp) hc k) (O2.pts t ht)) (atMostOne_of_noCommonContinuum (hf p kf))

theorem lines_apart' (O1 : Operand l1 B1) (O2 : Operand l2 B2) (h : doBoxesHaveNoCommonContinuum B1 B2 = true) :
    ∀ s ∈ linesOf l1, ∀ t ∈ linesOf l2, Apart s t := fun s hs t ht =>
  atMostOne_mono (Set.inter_subset_inter (O1.pts s hs) (O2.pts t ht)) (atMostOne_of_noCommonContinuum h)

/-- Nothing in common. -/
theorem combined_apart (op : ShpOp) (v1 : ValidPolygons l1) (v2 : ValidPolygons l2)
    (d : ∀ p ∈ l1, ∀ r ∈ l2, ∀ q, ¬ (p.locate q = .interior ∧ r.locate q = .interior))
    (ap : op = .union ∨ op = .symmetricDifference → ∀ s ∈ linesOf l1, ∀ t ∈ linesOf l2, Apart s t) :
    Combined op l1 l2 (keptOf op l1 l2) :=
  combine v1 v2 (C1 := []) (C2 := []) (.refl _) (.refl _) (ran_nil op) d d fun k => ⟨ap k, ap k⟩

theorem area_not {p : Polygon} {B : Box} (h : (!doBoxesHaveCommonArea p.boundingBox B) = true) :
    doBoxesHaveNoCommonArea p.boundingBox B = true := by
  rwa [commonArea_not, Bool.not_not] at h

theorem continuum_not {p : Polygon} {B : Box} (h : (!doBoxesHaveCommonContinuum p.boundingBox B) = true) :
    doBoxesHaveNoCommonContinuum p.boundingBox B = true :=
  noCommon_true (by simpa using h)

theorem filter_nil {l : List Polygon} {f : Polygon → Bool} (h : l.filter f = []) : l = l.filter fun p => !f p := by
  refine (List.filter_eq_self.mpr fun p hp => ?_).symm
  have := List.filter_eq_nil_iff.mp h p hp
  simpa using this

theorem filter_perm (l : List Polygon) (f : Polygon → Bool) : (l.filter f ++ l.filter fun p => !f p).Perm l :=
  List.filter_append_perm f l

/-- Operands whose boxes are apart, or where one has no polygons near the box of the other one. -/
theorem areas_checks (O1 : Operand l1 B1) (O2 : Operand l2 B2)
    (h : doBoxesHaveNoCommonArea B1 B2 = true ∨ (l1.filter fun p => doBoxesHaveCommonArea p.boundingBox B2) = [] ∨
      (l2.filter fun p => doBoxesHaveCommonArea p.boundingBox B1) = []) :
    ∀ p ∈ l1, ∀ r ∈ l2, ∀ q, ¬ (p.locate q = .interior ∧ r.locate q = .interior) := by
  rcases h with h | h | h
  · exact areas_apart' O1 O2 h
  · have := areas_apart O1 O2 (f := fun p => !doBoxesHaveCommonArea p.boundingBox B2) fun p k => area_not k
    rwa [← filter_nil h] at this
  · have := areas_apart O2 O1 (f := fun p => !doBoxesHaveCommonArea p.boundingBox B1) fun p k => area_not k
    rw [← filter_nil h] at this
    exact fun p hp r hr q k => this r hr p hp q k.symm

theorem continuum_checks (O1 : Operand l1 B1) (O2 : Operand l2 B2)
    (h : doBoxesHaveNoCommonContinuum B1 B2 = true ∨ (l1.filter fun p => doBoxesHaveCommonContinuum p.boundingBox B2) = [] ∨
      (l2.filter fun p => doBoxesHaveCommonContinuum p.boundingBox B1) = []) :
    (∀ p ∈ l1, ∀ r ∈ l2, ∀ q, ¬ (p.locate q = .interior ∧ r.locate q = .interior)) ∧
      ∀ s ∈ linesOf l1, ∀ t ∈ linesOf l2, Apart s t := by
  rcases h with h | h | h
  · exact ⟨areas_apart' O1 O2 (noCommonContinuum_area h), lines_apart' O1 O2 h⟩
  · have k1 := areas_apart O1 O2 (f := fun p => !doBoxesHaveCommonContinuum p.boundingBox B2) fun p k =>
      noCommonContinuum_area (continuum_not k)
    have k2 := lines_apart O1 O2 (f := fun p => !doBoxesHaveCommonContinuum p.boundingBox B2) fun p k => continuum_not k
    rw [← filter_nil h] at k1 k2
    exact ⟨k1, k2⟩
  · have k1 := areas_apart O2 O1 (f := fun p => !doBoxesHaveCommonContinuum p.boundingBox B1) fun p k =>
      noCommonContinuum_area (continuum_not k)
    have k2 := lines_apart O2 O1 (f := fun p => !doBoxesHaveCommonContinuum p.boundingBox B1) fun p k => continuum_not k
    rw [← filter_nil h] at k1 k2
    exact ⟨fun p hp r hr q k => k1 r hr p hp q k.symm, fun s hs t ht => apart_symm (k2 t ht s hs)⟩

/-! ### Cores -/

/-- Early returns. -/
theorem early_area {op : ShpOp} (hop : op = .difference ∨ op = .intersection) (O1 : Operand l1 B1) (O2 : Operand l2 B2)
    (h : doBoxesHaveNoCommonArea B1 B2 = true ∨ (l1.filter fun p => doBoxesHaveCommonArea p.boundingBox B2) = [] ∨
      (l2.filter fun p => doBoxesHaveCommonArea p.boundingBox B1) = []) : Combined op l1 l2 (keptOf op l1 l2) :=
  combined_apart op O1.valid O2.valid (areas_checks O1 O2 h) (by rcases hop with rfl | rfl <;> rintro (k | k) <;> cases k)

theorem early_continuum {op : ShpOp} (O1 : Operand l1 B1) (O2 : Operand l2 B2)
    (h : doBoxesHaveNoCommonContinuum B1 B2 = true ∨ (l1.filter fun p => doBoxesHaveCommonContinuum p.boundingBox B2) = [] ∨
      (l2.filter fun p => doBoxesHaveCommonContinuum p.boundingBox B1) = []) : Combined op l1 l2 (keptOf op l1 l2) :=
  combined_apart op O1.valid O2.valid (continuum_checks O1 O2 h).1 fun _ => (continuum_checks O1 O2 h).2

theorem core_difference (O1 : Operand l1 B1) (O2 : Operand l2 B2) {C1 C2 : List Polygon}
    (e1 : C1 = l1.filter fun p => doBoxesHaveCommonArea p.boundingBox B2)
    (e2 : C2 = l2.filter fun p => doBoxesHaveCommonArea p.boundingBox B1) (hne : C1 ≠ []) :
    ∃ ps, ShpOp.difference.run (fun p => decide (p.x > listMax (C1.map fun p => p.boundingBox.maxX))) (edgesOf C1)
        ((edgesOf C2).filter fun s => s.meetsRange (listMin (C1.map fun p => p.boundingBox.minX))
          (listMax (C1.map fun p => p.boundingBox.maxX))) = .ok ps ∧
      Combined .difference l1 l2 (ps ++ l1.filter fun p => !doBoxesHaveCommonArea p.boundingBox B2) := by
  subst e1 e2
  have c1 := validPolygons_filter O1.valid fun p => doBoxesHaveCommonArea p.boundingBox B2
  have c2 := validPolygons_filter O2.valid fun p => doBoxesHaveCommonArea p.boundingBox B1
  obtain ⟨ps, hr, h⟩ := run_difference c1 c2 (range_of c1 hne)
  refine ⟨ps, hr, combine (op := .difference) O1.valid O2.valid (filter_perm _ _) (filter_perm _ _) h
    (areas_apart O1 O2 fun p k => area_not k) ?_ (by rintro (k | k) <;> cases k)⟩
  have := areas_apart O2 O1 (f := fun p => !doBoxesHaveCommonArea p.boundingBox B1) fun p k => area_not k
  exact fun p hp r hr q k => this r hr p hp q k.symm

theorem core_intersection (O1 : Operand l1 B1) (O2 : Operand l2 B2) {C1 C2 : List Polygon}
    (e1 : C1 = l1.filter fun p => doBoxesHaveCommonArea p.boundingBox B2)
    (e2 : C2 = l2.filter fun p => doBoxesHaveCommonArea p.boundingBox B1) (hne1 : C1 ≠ []) (hne2 : C2 ≠ []) {a b : ℚ}
    (ha : a = max (listMin (C1.map fun p => p.boundingBox.minX)) (listMin (C2.map fun p => p.boundingBox.minX)))
    (hb : b = min (listMax (C1.map fun p => p.boundingBox.maxX)) (listMax (C2.map fun p => p.boundingBox.maxX))) :
    ∃ ps, ShpOp.intersection.run (fun p => decide (p.x > b)) ((edgesOf C1).filter fun s => s.meetsRange a b)
        ((edgesOf C2).filter fun s => s.meetsRange a b) = .ok ps ∧ Combined .intersection l1 l2 ps := by
  subst e1 e2 ha hb
  have c1 := validPolygons_filter O1.valid fun p => doBoxesHaveCommonArea p.boundingBox B2
  have c2 := validPolygons_filter O2.valid fun p => doBoxesHaveCommonArea p.boundingBox B1
  obtain ⟨ps, hr, h⟩ := run_intersection c1 c2 (range_of c1 hne1) (range_of c2 hne2)
  have := combine (op := .intersection) O1.valid O2.valid (filter_perm _ _) (filter_perm _ _) h
    (areas_apart O1 O2 fun p k => area_not k) (by
      have := areas_apart O2 O1 (f := fun p => !doBoxesHaveCommonArea p.boundingBox B1) fun p k => area_not k
      exact fun p hp r hr q k => this r hr p hp q k.symm) (by rintro (k | k) <;> cases k)
  rw [keptOf, List.append_nil] at this
  exact ⟨ps, hr, this⟩

theorem core_whole {op : ShpOp} (hop : op = .union ∨ op = .symmetricDifference) (O1 : Operand l1 B1) (O2 : Operand l2 B2)
    {C1 C2 : List Polygon} (e1 : C1 = l1.filter fun p => doBoxesHaveCommonContinuum p.boundingBox B2)
    (e2 : C2 = l2.filter fun p => doBoxesHaveCommonContinuum p.boundingBox B1) (hne : C1 ≠ []) :
    ∃ ps, op.run (fun _ => false) (edgesOf C1) (edgesOf C2) = .ok ps ∧ (op = .union → ps ≠ []) ∧
      Combined op l1 l2 (ps ++ ((l1.filter fun p => !doBoxesHaveCommonContinuum p.boundingBox B2) ++
        l2.filter fun p => !doBoxesHaveCommonContinuum p.boundingBox B1)) := by
  subst e1 e2
  have c1 := validPolygons_filter O1.valid fun p => doBoxesHaveCommonContinuum p.boundingBox B2
  have c2 := validPolygons_filter O2.valid fun p => doBoxesHaveCommonContinuum p.boundingBox B1
  obtain ⟨ps, hr, h⟩ := run_whole hop c1 c2 hne
  have k1 := areas_apart O2 O1 (f := fun p => !doBoxesHaveCommonContinuum p.boundingBox B1) fun p k =>
    noCommonContinuum_area (continuum_not k)
  have k2 := lines_apart O2 O1 (f := fun p => !doBoxesHaveCommonContinuum p.boundingBox B1) fun p k => continuum_not k
  have := combine (op := op) O1.valid O2.valid (filter_perm _ _) (filter_perm _ _) h
    (areas_apart O1 O2 fun p k => noCommonContinuum_area (continuum_not k))
    (fun p hp r hr q k => k1 r hr p hp q k.symm) fun _ =>
      ⟨lines_apart O1 O2 fun p k => continuum_not k, fun s hs t ht => apart_symm (k2 t ht s hs)⟩
  refine ⟨ps, hr, fun k => h.ne k hne, ?_⟩
  rcases hop with rfl | rfl <;> exact this

end

/-! ### Results -/

theorem odd_countP {α : Type} (f : α → Bool) (l : List α) : Odd (l.countP f) ↔ xorAll f l = true := by
  induction l with
  | nil => simp [xorAll]
  | cons x l ih =>
    rw [List.countP_cons, xorAll]
    by_cases k : f x = true
    · rw [if_pos k, Nat.odd_add_one, ih, k]
      cases xorAll f l <;> simp
    · rw [if_neg k, Nat.add_zero, ih]
      rw [Bool.not_eq_true] at k
      rw [k, Bool.false_xor]

def condOf : ShpOp → Prop → Prop → Prop
  | .difference => fun a b => a ∧ ¬ b
  | .intersection => fun a b => a ∧ b
  | .union => fun a b => a ∨ b
  | .symmetricDifference => fun a b => Xor' a b

theorem opv_cond (op : ShpOp) (a b : Bool) : opv op a b = true ↔ condOf op (a = true) (b = true) := by
  cases op <;> cases a <;> cases b <;> simp [opv, condOf, Xor']

theorem collect_maybe {res : List Polygon} : ∃ g, collectMaybeEmptyPolygons res = .ok g ∧ resultPolygons g = some res := by
  rcases res with _ | ⟨p, _ | ⟨r, l⟩⟩
  · exact ⟨_, rfl, rfl⟩
  · exact ⟨_, rfl, rfl⟩
  · exact ⟨.multipolygon ⟨p :: r :: l⟩, rfl, rfl⟩

theorem collect_nonEmpty {res : List Polygon} (h : res ≠ []) : ∃ g, collectNonEmptyPolygons res = .ok g ∧ resultPolygons g = some res := by
  rcases res with _ | ⟨p, _ | ⟨r, l⟩⟩
  · exact absurd rfl h
  · exact ⟨_, rfl, rfl⟩
  · exact ⟨.multipolygon ⟨p :: r :: l⟩, rfl, rfl⟩

/-- The result of an operation. -/
def Result (op : ShpOp) (l1 l2 : List Polygon) (r : Except Err Geom) : Prop :=
  ∃ g res, r = .ok g ∧ resultPolygons g = some res ∧ Combined op l1 l2 res

theorem Result.sound {op : ShpOp} {l1 l2 : List Polygon} {r : Except Err Geom} (h : Result op l1 l2 r) : SoundContours l1 l2 r := by
  obtain ⟨g, res, e1, e2, k⟩ := h
  exact ⟨g, res, e1, e2, k.simple, k.noOv, k.orient, k.sub⟩

open Classical in
theorem Result.evenOdd {op : ShpOp} {l1 l2 : List Polygon} {r : Except Err Geom} (h : Result op l1 l2 r) (v1 : ValidPolygons l1)
    (v2 : ValidPolygons l2) : EvenOdd (condOf op) l1 l2 r := by
  obtain ⟨g, res, e1, e2, k⟩ := h
  refine ⟨g, res, e1, e2, fun q h1 h2 => ?_⟩
  have r1 : q ∈ regionPts l1 ↔ q ∈ insidePts l1 := by
    rw [mem_region v1, segsPts_edges v1.1]; exact or_iff_right h1
  have r2 : q ∈ regionPts l2 ↔ q ∈ insidePts l2 := by
    rw [mem_region v2, segsPts_edges v2.1]; exact or_iff_right h2
  rw [coverage, odd_countP, k.odd q h1 h2 (decide (q ∈ insidePts l1)) (decide (q ∈ insidePts l2)) decide_eq_true_iff decide_eq_true_iff,
    opv_cond, decide_eq_true_iff, decide_eq_true_iff, r1, r2]

theorem locatedBy_of {g : Geom} {res : List Polygon} (h : resultPolygons g = some res) (q : Point) :
    locatedBy g q = some (locateInPolygons q res) := by
  unfold resultPolygons at h
  unfold locatedBy
  cases g with
  | empty => simp only [Option.some.injEq] at h; subst h; rfl
  | polygon p =>
    simp only [Option.some.injEq] at h; subst h
    simp only [locateInPolygons]
    by_cases k : p.locate q = .exterior <;> simp [k]
  | multipolygon m => simp only [Option.some.injEq] at h; subst h; rfl
  | _ => cases h

open Classical in
/-- When the vertices are off the edges the result has the selected points inside. -/
theorem Result.exact {op : ShpOp} {l1 l2 : List Polygon} {r : Except Err Geom} (h : Result op l1 l2 r) (v1 : ValidPolygons l1)
    (v2 : ValidPolygons l2) (hc : CleanOperands l1 l2) : Exact (condOf op) l1 l2 r := by
  obtain ⟨g, res, e1, e2, k⟩ := h
  refine ⟨g, e1, fun q h1 h2 => ?_⟩
  have r1 : q ∈ regionPts l1 ↔ q ∈ insidePts l1 := by
    rw [mem_region v1, segsPts_edges v1.1]; exact or_iff_right h1
  have r2 : q ∈ regionPts l2 ↔ q ∈ insidePts l2 := by
    rw [mem_region v2, segsPts_edges v2.1]; exact or_iff_right h2
  have ke := k.exact hc q h1 h2 (decide (q ∈ insidePts l1)) (decide (q ∈ insidePts l2)) decide_eq_true_iff decide_eq_true_iff
  rw [opv_cond, decide_eq_true_iff, decide_eq_true_iff, ← r1, ← r2] at ke
  rw [← ke, locatedBy_of e2]
  have nb : ∀ p ∈ res, p.locate q ≠ .boundary := by
    intro p hp hb
    have : q ∈ outlinePts res := by
      rcases (C24_polygon_locate p q).2.mp hb with hq | ⟨_, A, c, B, e, hq, _⟩
      · exact ⟨p.border, List.mem_flatMap.mpr ⟨p, hp, by simp [polygonContours]⟩, hq⟩
      · exact ⟨c, List.mem_flatMap.mpr ⟨p, hp, by simp [polygonContours, e]⟩, hq⟩
    rcases k.sub this with z | z
    · exact h1 z
    · exact h2 z
  constructor
  · rintro ⟨p, hp, hl⟩
    have : ∀ l : List Polygon, p ∈ l → (∀ p ∈ l, p.locate q ≠ .boundary) → locateInPolygons q l = .interior := by
      intro l
      induction l with
      | nil => intro k _; cases k
      | cons r l ih =>
        intro hm hb
        unfold locateInPolygons
        rcases hr : r.locate q with _ | _ | _
        · exact absurd hr (hb r (by simp))
        · rcases List.mem_cons.mp hm with rfl | hm
          · rw [hr] at hl; cases hl
          · simpa using ih hm fun p hp => hb p (by simp [hp])
        · simp
    rw [this res hp nb]
  · intro hn
    congr 1
    rw [show locateInPolygons q res = Multipolygon.locate ⟨res⟩ q from rfl, (C24_multipolygon_locate ⟨res⟩ q).1]
    intro p hp
    rcases hr : p.locate q with _ | _ | _
    · exact absurd hr (nb p hp)
    · rfl
    · exact absurd ⟨p, hp, hr⟩ hn

end Rene
