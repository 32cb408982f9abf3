import Verif.Lemmas.Assemble.Run
import Verif.Props.Regions
import Verif.Props.Mixed
import Verif.Spec.Shaped
import Mathlib.Algebra.Ring.Parity

/-! Boolean operations on polygons. -/

namespace Rene
open Spec Sweep

/-! ### Borders and boxes -/

theorem segsPts_of_sets {l l' : List Segment} (h : (l.map segPts).Perm (l'.map segPts)) : segsPts l = segsPts l' := by
  have key : ∀ {l l' : List Segment}, (l.map segPts).Perm (l'.map segPts) → ∀ q ∈ segsPts l, q ∈ segsPts l' := by
    rintro l l' h q ⟨s, hs, hq⟩
    obtain ⟨t, ht, e⟩ := List.mem_map.mp (h.subset (List.mem_map_of_mem hs))
    exact ⟨t, ht, by rw [e]; exact hq⟩
  ext q
  exact ⟨key h q, key h.symm q⟩

theorem segsPts_contours (l : List Polygon) : segsPts ((contoursOf l).flatMap Contour.segments) = outlinePts l := by
  ext q
  rw [segsPts_flatMap]
  rfl

theorem contoursOf_segments (l : List Polygon) : (contoursOf l).flatMap Contour.segments =
    l.flatMap fun p => (polygonContours p).flatMap Contour.segments := by
  unfold contoursOf
  rw [List.flatMap_assoc]

theorem segsPts_edges {l : List Polygon} (h : ∀ p ∈ l, ValidPolygon p) : segsPts (edgesOf l) = outlinePts l := by
  rw [segsPts_of_sets (polygons_sets h), ← segsPts_contours, contoursOf_segments]

theorem interior_box {p : Polygon} (h : ValidPolygon p) {q : Point} (hq : p.locate q = .interior) :
    q ∈ boxInterior p.boundingBox := by
  have hb := (C24_polygon_locate p q).1.mp hq
  have h3 : 3 ≤ p.border.vertices.length := (h.1 p.border (by simp [polygonContours])).1
  have ht := (contour_tight p.border (by intro e; rw [e] at h3; simp at h3)).1
  have hin : q ∈ boxPts p.border.boundingBox := by
    by_contra k
    rw [C22_outside_bounding_box p.border h3 q k] at hb
    cases hb.1
  have hoff : q ∉ segsPts p.border.segments := fun k => by
    rw [(C22_region_boundary p.border q).mpr k] at hb
    cases hb.1
  -- a straight way out
  have out : ∀ r : Point, r ∉ boxPts p.border.boundingBox →
      (∀ x ∈ seg q r, x ∈ boxPts p.border.boundingBox → x = q) → False := by
    intro r hr hx
    have : locatePointInRegion p.border q = locatePointInRegion p.border r := by
      refine C23_constant_on_segment _ _ _ (Set.disjoint_left.mpr fun x hxs hxc => ?_)
      rw [hx x hxs (ht hxc)] at hxc
      exact hoff hxc
    rw [hb.1, C22_outside_bounding_box p.border h3 r hr] at this
    cases this
  obtain ⟨b1, b2, b3, b4⟩ := hin
  have hx : ∀ r : Point, ∀ x ∈ seg q r, ∃ t, 0 ≤ t ∧ t ≤ 1 ∧ x = lerp q r t := fun r x hx => by
    obtain ⟨t, h1, h2, h3⟩ := hx; exact ⟨t, h1, h2, h3⟩
  unfold Polygon.boundingBox
  refine ⟨lt_of_le_of_ne b1 ?_, lt_of_le_of_ne b2 ?_, lt_of_le_of_ne b3 ?_, lt_of_le_of_ne b4 ?_⟩ <;> intro e
  · refine out ⟨q.x - 1, q.y⟩ (fun k => by have := k.1; simp only at this; linarith) fun x hxs hxb => ?_
    obtain ⟨t, t0, t1, rfl⟩ := hx _ x hxs
    have := hxb.1
    simp only [lerp] at this
    have : t = 0 := by nlinarith
    subst this; simp [lerp]
  · refine out ⟨q.x + 1, q.y⟩ (fun k => by have := k.2.1; simp only at this; linarith) fun x hxs hxb => ?_
    obtain ⟨t, t0, t1, rfl⟩ := hx _ x hxs
    have := hxb.2.1
    simp only [lerp] at this
    have : t = 0 := by nlinarith
    subst this; simp [lerp]
  · refine out ⟨q.x, q.y - 1⟩ (fun k => by have := k.2.2.1; simp only at this; linarith) fun x hxs hxb => ?_
    obtain ⟨t, t0, t1, rfl⟩ := hx _ x hxs
    have := hxb.2.2.1
    simp only [lerp] at this
    have : t = 0 := by nlinarith
    subst this; simp [lerp]
  · refine out ⟨q.x, q.y + 1⟩ (fun k => by have := k.2.2.2; simp only at this; linarith) fun x hxs hxb => ?_
    obtain ⟨t, t0, t1, rfl⟩ := hx _ x hxs
    have := hxb.2.2.2
    simp only [lerp] at this
    have : t = 0 := by nlinarith
    subst this; simp [lerp]

theorem noCommonArea_interiors {a b : Box} (h : doBoxesHaveNoCommonArea a b = true) {q : Point}
    (h1 : q ∈ boxInterior a) (h2 : q ∈ boxInterior b) : False := by
  unfold doBoxesHaveNoCommonArea Box.disjointWith Box.touches at h
  simp only [Bool.or_eq_true, decide_eq_true_eq] at h
  obtain ⟨a1, a2, a3, a4⟩ := h1
  obtain ⟨b1, b2, b3, b4⟩ := h2
  rcases h with (((h | h) | h) | h) | ⟨h | h, _⟩ | ⟨_, h | h⟩ <;> linarith

theorem noCommonContinuum_area {a b : Box} (h : doBoxesHaveNoCommonContinuum a b = true) :
    doBoxesHaveNoCommonArea a b = true := by
  unfold doBoxesHaveNoCommonContinuum at h
  unfold doBoxesHaveNoCommonArea
  cases h1 : a.disjointWith b <;> cases h2 : a.touches b <;> simp_all

theorem commonArea_not {a b : Box} : doBoxesHaveCommonArea a b = !doBoxesHaveNoCommonArea a b := by
  unfold doBoxesHaveCommonArea doBoxesHaveNoCommonArea
  cases a.disjointWith b <;> cases a.touches b <;> rfl

theorem noCommonArea_symm {a b : Box} (h : doBoxesHaveNoCommonArea a b = true) : doBoxesHaveNoCommonArea b a = true := by
  unfold doBoxesHaveNoCommonArea Box.disjointWith Box.touches at *
  simp only [Bool.or_eq_true, decide_eq_true_eq] at *
  grind

theorem commonArea_x {a b : Box} (h : ¬ doBoxesHaveNoCommonArea a b = true) : a.minX ≤ b.maxX ∧ b.minX ≤ a.maxX := by
  unfold doBoxesHaveNoCommonArea Box.disjointWith at h
  simp only [Bool.or_eq_true, decide_eq_true_eq] at h
  constructor <;> grind

/-- The open box of a polygon is in that of a multipolygon. -/
theorem mergeBoxes_le (b : Box) (l : List Box) : ∀ c ∈ b :: l, (mergeBoxes b l).minX ≤ c.minX ∧ c.maxX ≤ (mergeBoxes b l).maxX ∧
    (mergeBoxes b l).minY ≤ c.minY ∧ c.maxY ≤ (mergeBoxes b l).maxY := by
  unfold mergeBoxes
  induction l generalizing b with
  | nil => intro c hc; rw [List.mem_singleton.mp hc]; exact ⟨le_rfl, le_rfl, le_rfl, le_rfl⟩
  | cons a l ih =>
    rw [List.foldl_cons]
    intro c hc
    have e : ∀ c, c = b ∨ c = a → (mergeBox b a).minX ≤ c.minX ∧ c.maxX ≤ (mergeBox b a).maxX ∧
        (mergeBox b a).minY ≤ c.minY ∧ c.maxY ≤ (mergeBox b a).maxY := by
      rintro c (rfl | rfl) <;> simp only [mergeBox] <;> grind
    have ih0 := ih (mergeBox b a)
    rcases List.mem_cons.mp hc with rfl | hc
    · have := ih0 _ List.mem_cons_self
      have := e c (Or.inl rfl)
      grind
    · rcases List.mem_cons.mp hc with rfl | hc
      · have := ih0 _ List.mem_cons_self
        have := e c (Or.inr rfl)
        grind
      · exact ih0 c (List.mem_cons_of_mem _ hc)

theorem multipolygon_le (m : Multipolygon) {p : Polygon} (hp : p ∈ m.polygons) :
    m.boundingBox.minX ≤ p.boundingBox.minX ∧ p.boundingBox.maxX ≤ m.boundingBox.maxX ∧
    m.boundingBox.minY ≤ p.boundingBox.minY ∧ p.boundingBox.maxY ≤ m.boundingBox.maxY := by
  unfold Multipolygon.boundingBox
  rcases hm : m.polygons with _ | ⟨a, l⟩
  · rw [hm] at hp; cases hp
  · rw [hm] at hp
    refine mergeBoxes_le _ _ p.boundingBox ?_
    rcases List.mem_cons.mp hp with rfl | k
    · exact List.mem_cons_self
    · exact List.mem_cons_of_mem _ (List.mem_map_of_mem k)

/-- Inner points of polygons whose boxes (or the box around) share no area. -/
theorem interiors_of_boxes {p : Polygon} {a b : Box} (h : doBoxesHaveNoCommonArea a b = true)
    (hp : ValidPolygon p) (hb : ∀ q, p.locate q = .interior → q ∈ boxInterior a) {r : Polygon}
    (hr : ∀ q, r.locate q = .interior → q ∈ boxInterior b) (q : Point) :
    ¬ (p.locate q = .interior ∧ r.locate q = .interior) := fun k =>
  noCommonArea_interiors h (hb q k.1) (hr q k.2)

theorem multi_interior {m : Multipolygon} {p : Polygon} (hp : p ∈ m.polygons) (hv : ValidPolygon p) {q : Point}
    (hq : p.locate q = .interior) : q ∈ boxInterior m.boundingBox := by
  obtain ⟨a1, a2, a3, a4⟩ := multipolygon_le m hp
  obtain ⟨b1, b2, b3, b4⟩ := interior_box hv hq
  exact ⟨lt_of_le_of_lt a1 b1, lt_of_lt_of_le b2 a2, lt_of_le_of_lt a3 b3, lt_of_lt_of_le b4 a4⟩

/-! ### Plans -/

theorem plan_whole {op : ShpOp} (hop : op = .union ∨ op = .symmetricDifference) {l1 l2 : List Polygon}
    (v1 : ValidPolygons l1) (v2 : ValidPolygons l2) (hne : edgesOf l1 ++ edgesOf l2 ≠ []) :
    Plan op l1 l2 (edgesOf l1) (edgesOf l2) (fun _ => false) := by
  have e : ∀ {l k : List Segment}, EndsO k l l (fun _ => false) := fun {l k} =>
    ⟨fun _ _ => rfl, fun s hs => Or.inl hs, fun s hs => ⟨s, hs, le_rfl⟩⟩
  refine ⟨v1, v2, .refl _, .refl _, hne, (fun _ _ _ k => by cases k), (fun _ _ => rfl), (fun s hs => Or.inl hs),
    (fun s hs => Or.inl hs), ?_, ?_, fun _ _ _ => rfl⟩
  · rcases hop with rfl | rfl <;> exact ⟨fun s hs => Or.inl hs, fun s hs => Or.inl hs⟩
  · rcases hop with rfl | rfl <;> exact ⟨e, e⟩

theorem plan_range {op : ShpOp} {l1 l2 : List Polygon} (v1 : ValidPolygons l1) (v2 : ValidPolygons l2) {a b : ℚ}
    (hop : (op = .difference ∧ (∀ s ∈ edgesOf l1, a ≤ (lo s).x) ∧ ((∀ s ∈ edgesOf l1, (hi s).x ≤ b) ∧
        ∃ s ∈ edgesOf l1, a ≤ (hi s).x)) ∨
      (op = .intersection ∧ ((∀ s ∈ edgesOf l1, a ≤ (lo s).x) ∨ (∀ s ∈ edgesOf l2, a ≤ (lo s).x)) ∧
        (((∀ s ∈ edgesOf l1, (hi s).x ≤ b) ∧ ∃ s ∈ edgesOf l1, a ≤ (hi s).x) ∨
          ((∀ s ∈ edgesOf l2, (hi s).x ≤ b) ∧ ∃ s ∈ edgesOf l2, a ≤ (hi s).x)))) :
    Plan op l1 l2 ((edgesOf l1).filter fun s => s.meetsRange a b) ((edgesOf l2).filter fun s => s.meetsRange a b)
      (fun p => decide (p.x > b)) := by
  have ltx : ∀ {u v : Point}, u.x < v.x → u < v := fun h => Point.lt_iff.mpr (Or.inl h)
  have out : ∀ {l : List Segment} {s : Segment}, s ∈ l → s ∈ l.filter (fun s => s.meetsRange a b) ∨ (hi s).x < a ∨ b < (lo s).x := by
    intro l s hs
    by_cases k : s.meetsRange a b = true
    · exact Or.inl (List.mem_filter.mpr ⟨hs, k⟩)
    · right
      rwa [meetsRange_iff, not_and_or, not_le, not_le] at k
  have hA : (∀ s ∈ edgesOf l1, a ≤ (lo s).x) ∨ (∀ s ∈ edgesOf l2, a ≤ (lo s).x) := by
    rcases hop with ⟨_, h, _⟩ | ⟨_, h, _⟩
    · exact Or.inl h
    · exact h
  have hst : ∀ v : Point, decide (v.x > b) = false → v.x ≤ b := fun v h => by
    rwa [decide_eq_false_iff_not, not_lt] at h
  have nl : ∀ {l : List Segment}, (∀ s ∈ l, a ≤ (lo s).x) →
      NoLeftO (l.filter fun s => s.meetsRange a b) l (fun p => decide (p.x > b)) := by
    intro l h s hs
    rcases out hs with k | k | k
    · exact Or.inl k
    · have := h s hs; have := lo_le_hi_x s; linarith
    · exact Or.inr fun v hv => ltx (lt_of_le_of_lt (hst v hv) k)
  have gap : ∀ {l l' : List Segment}, ((∀ s ∈ l, a ≤ (lo s).x) ∨ ∀ s ∈ l', a ≤ (lo s).x) → ∀ s ∈ l, (hi s).x < a →
      ∀ t ∈ l'.filter (fun s => s.meetsRange a b), hi s < lo t := by
    rintro l l' (h | h) s hs k t ht
    · have := h s hs; have := lo_le_hi_x s; linarith
    · exact ltx (lt_of_lt_of_le k (h t (List.mem_filter.mp ht).1))
  have dr : ∀ {l l' : List Segment}, ((∀ s ∈ l, a ≤ (lo s).x) ∨ ∀ s ∈ l', a ≤ (lo s).x) →
      DropO (l'.filter fun s => s.meetsRange a b) (l.filter fun s => s.meetsRange a b) l (fun p => decide (p.x > b)) := by
    intro l l' h s hs
    rcases out hs with k | k | k
    · exact Or.inl k
    · exact Or.inr (Or.inl (gap h s hs k))
    · exact Or.inr (Or.inr fun v hv => ltx (lt_of_le_of_lt (hst v hv) k))
  have en : ∀ {l l' : List Segment}, ((∀ s ∈ l, a ≤ (lo s).x) ∨ ∀ s ∈ l', a ≤ (lo s).x) →
      ((∀ s ∈ l, (hi s).x ≤ b) ∧ ∃ s ∈ l, a ≤ (hi s).x) →
      EndsO (l'.filter fun s => s.meetsRange a b) (l.filter fun s => s.meetsRange a b) l (fun p => decide (p.x > b)) ∧
        l.filter (fun s => s.meetsRange a b) ≠ [] := by
    rintro l l' h ⟨h1, s0, hs0, k0⟩
    have kept : ∀ t ∈ l, a ≤ (hi t).x → t ∈ l.filter fun s => s.meetsRange a b := fun t ht k =>
      List.mem_filter.mpr ⟨ht, meetsRange_iff.mpr ⟨k, (lo_le_hi_x t).trans (h1 t ht)⟩⟩
    refine ⟨⟨?_, ?_, ?_⟩, List.ne_nil_of_mem (kept s0 hs0 k0)⟩
    · intro s hs
      rw [decide_eq_false_iff_not, not_lt]; exact h1 s (List.mem_filter.mp hs).1
    · intro s hs
      rcases out hs with k | k | k
      · exact Or.inl k
      · exact Or.inr (gap h s hs k)
      · have := h1 s hs; have := lo_le_hi_x s; linarith
    · intro s hs
      by_cases k : a ≤ (hi s).x
      · exact ⟨s, kept s hs k, le_rfl⟩
      · exact ⟨s0, kept s0 hs0 k0, (ltx (lt_of_lt_of_le (not_le.mp k) k0)).le⟩
  have hC : CloseO op ((edgesOf l1).filter fun s => s.meetsRange a b) ((edgesOf l2).filter fun s => s.meetsRange a b)
      (edgesOf l1) (edgesOf l2) (fun p => decide (p.x > b)) ∧
      ((edgesOf l1).filter fun s => s.meetsRange a b) ++ ((edgesOf l2).filter fun s => s.meetsRange a b) ≠ [] := by
    rcases hop with ⟨rfl, _, h⟩ | ⟨rfl, _, h | h⟩
    · have := en hA h; exact ⟨this.1, fun k => this.2 (List.append_eq_nil_iff.mp k).1⟩
    · have := en hA h; exact ⟨Or.inl this.1, fun k => this.2 (List.append_eq_nil_iff.mp k).1⟩
    · have := en hA.symm h; exact ⟨Or.inr this.1, fun k => this.2 (List.append_eq_nil_iff.mp k).2⟩
  refine ⟨v1, v2, List.filter_sublist, List.filter_sublist, hC.2, mono_x b, ?_, dr hA, dr hA.symm, ?_, hC.1, ?_⟩
  · intro s hs
    rw [decide_eq_false_iff_not, not_lt]
    rcases List.mem_append.mp hs with k | k <;> exact (meetsRange_iff.mp (List.mem_filter.mp k).2).2
  · rcases hop with ⟨rfl, h, _⟩ | ⟨rfl, h, _⟩
    · exact nl h
    · exact h.imp nl nl
  · have bd : ∀ {l : List Segment}, (∀ s ∈ l, (hi s).x ≤ b) → ∀ q ∈ segsPts l, decide (q.x > b) = false := by
      rintro l h q ⟨s, hs, hq⟩
      rw [decide_eq_false_iff_not, not_lt]
      have k := (lo_hi_bounds hq).2
      refine le_trans ?_ (h s hs)
      rcases eq_or_lt_of_le k with k | k
      · rw [k]
      · rcases Point.lt_iff.mp k with k | ⟨k, _⟩
        · exact k.le
        · exact k.le
    intro q q1 q2
    rcases hop with ⟨_, _, h, _⟩ | ⟨_, _, ⟨h, _⟩ | ⟨h, _⟩⟩
    · exact bd h q q1
    · exact bd h q q1
    · exact bd h q q2

/-! ### Untouched polygons -/

abbrev linesOf (l : List Polygon) : List Segment := l.flatMap fun p => (polygonContours p).flatMap Contour.segments

theorem linesOf_append (l l' : List Polygon) : linesOf (l ++ l') = linesOf l ++ linesOf l' := List.flatMap_append

theorem validPolygons_perm {l l' : List Polygon} (hp : l.Perm l') (h : ValidPolygons l) : ValidPolygons l' := by
  refine ⟨fun p k => h.1 p (hp.mem_iff.mpr k), noOverlap_perm (hp.flatMap_right _) h.2.1,
    (hp.pairwise_iff ?_).mp h.2.2⟩
  intro p r k q
  exact ⟨(k q).2, (k q).1⟩

/-- Over the contours of a valid polygon. -/
theorem xorAll_polygon {p : Polygon} (h : ValidPolygon p) {q : Point} (hq : ∀ c ∈ polygonContours p, q ∉ segsPts c.segments) :
    xorAll (fun c => decide (locatePointInRegion c q = .interior)) (polygonContours p) = decide (p.locate q = .interior) := by
  obtain ⟨_, _, h3, h4⟩ := h
  have off : ∀ c ∈ polygonContours p, locatePointInRegion c q ≠ .interior → locatePointInRegion c q = .exterior := by
    intro c hc k
    have : locatePointInRegion c q ≠ .boundary := fun e => hq c hc ((C22_region_boundary c q).mp e)
    revert k this
    generalize locatePointInRegion c q = x
    cases x <;> decide
  have hex := xorAll_any (g := fun c => decide (locatePointInRegion c q = .interior)) (l := p.holes) (by
    refine h4.imp fun {a b} k => ?_
    rw [decide_eq_true_eq, decide_eq_true_eq]
    rintro ⟨k1, k2⟩
    exact (k q).1 ⟨k1, by rw [k2]; decide⟩)
  rw [polygonContours, xorAll, Bool.eq_iff_iff, decide_eq_true_eq, (C24_polygon_locate p q).1]
  by_cases hb : locatePointInRegion p.border q = .interior
  · by_cases he : ∃ x ∈ p.holes, decide (locatePointInRegion x q = .interior) = true
    · rw [hex.mpr he, decide_eq_true hb]
      obtain ⟨x, hx, k⟩ := he
      rw [decide_eq_true_eq] at k
      simp only [Bool.xor_self, Bool.false_eq_true, false_iff, not_and]
      exact fun _ k' => by rw [k' x hx] at k; cases k
    · have : xorAll (fun c => decide (locatePointInRegion c q = .interior)) p.holes = false := by
        rw [Bool.eq_false_iff]; exact fun k => he (hex.mp k)
      rw [this, decide_eq_true hb]
      simp only [Bool.xor_false, true_iff]
      exact ⟨hb, fun x hx => off x (by simp [polygonContours, hx]) fun k => he ⟨x, hx, by rw [decide_eq_true_eq]; exact k⟩⟩
  · have : xorAll (fun c => decide (locatePointInRegion c q = .interior)) p.holes = false := by
      rw [Bool.eq_false_iff]
      intro k
      obtain ⟨x, hx, k⟩ := hex.mp k
      rw [decide_eq_true_eq] at k
      exact hb ((h3 x hx q).1 k)
    rw [this, decide_eq_false hb]
    simp [hb]

theorem not_outline {l : List Polygon} {q : Point} (h : q ∉ outlinePts l) {p : Polygon} (hp : p ∈ l) :
    ∀ c ∈ polygonContours p, q ∉ segsPts c.segments := fun c hc k =>
  h ⟨c, List.mem_flatMap.mpr ⟨p, hp, hc⟩, k⟩

theorem xorAll_polygons {l : List Polygon} (h : ValidPolygons l) {q : Point} (hq : q ∉ outlinePts l) :
    xorAll (fun c => decide (locatePointInRegion c q = .interior)) (contoursOf l) = true ↔ q ∈ insidePts l := by
  have e : xorAll (fun c => decide (locatePointInRegion c q = .interior)) (contoursOf l) =
      xorAll (fun p : Polygon => decide (p.locate q = .interior)) l := by
    have hv := h.1
    clear h
    induction l with
    | nil => rfl
    | cons p l ih =>
      rw [contoursOf, List.flatMap_cons, xorAll_append, xorAll_polygon (hv p (by simp)) (not_outline hq (by simp)), xorAll]
      refine congrArg _ (ih (fun k => hq ?_) fun r hr => hv r (by simp [hr]))
      obtain ⟨c, hc, k⟩ := k
      exact ⟨c, by rw [contoursOf, List.flatMap_cons]; exact List.mem_append_right _ hc, k⟩
  rw [e, xorAll_any]
  · simp only [decide_eq_true_eq]; rfl
  · refine h.2.2.imp fun {a b} k => ?_
    rw [decide_eq_true_eq, decide_eq_true_eq]
    rintro ⟨k1, k2⟩
    exact (k q).1 ⟨k1, by rw [k2]; decide⟩

/-- What the polygons of an operation satisfy. -/
structure Combined (op : ShpOp) (l1 l2 res : List Polygon) : Prop where
  simple : ∀ c ∈ contoursOf res, SimpleContour c
  noOv : NoOverlap ((contoursOf res).flatMap Contour.segments)
  orient : ∀ p ∈ res, p ∈ l1 ∨ p ∈ l2 ∨
      (p.border.orientation = .counterclockwise ∧ ∀ h ∈ p.holes, h.orientation = .clockwise)
  sub : outlinePts res ⊆ outlinePts l1 ∪ outlinePts l2
  odd : ∀ q, q ∉ outlinePts l1 → q ∉ outlinePts l2 → ∀ a b : Bool, (a = true ↔ q ∈ insidePts l1) →
    (b = true ↔ q ∈ insidePts l2) →
    xorAll (fun c => decide (locatePointInRegion c q = .interior)) (contoursOf res) = opv op a b
  exact : CleanOperands l1 l2 → ∀ q, q ∉ outlinePts l1 → q ∉ outlinePts l2 → ∀ a b : Bool, (a = true ↔ q ∈ insidePts l1) →
    (b = true ↔ q ∈ insidePts l2) → (q ∈ insidePts res ↔ opv op a b = true)
  valid : CleanOperands l1 l2 → ∀ q, q ∉ outlinePts l1 → q ∉ outlinePts l2 → GenValid res q

/-- The polygons kept as they are. -/
def keptOf (op : ShpOp) (U1 U2 : List Polygon) : List Polygon :=
  match op with
  | .difference => U1
  | .intersection => []
  | .union => U1 ++ U2
  | .symmetricDifference => U1 ++ U2

def keptB (op : ShpOp) (a b : Bool) : Bool :=
  match op with
  | .difference => a
  | .intersection => false
  | .union => a ^^ b
  | .symmetricDifference => a ^^ b

theorem opv_kept_or : ∀ (op : ShpOp) (a a' b b' : Bool), ¬ (a = true ∧ a' = true) → ¬ (b = true ∧ b' = true) →
    ¬ (a' = true ∧ (b = true ∨ b' = true)) → ¬ (b' = true ∧ (a = true ∨ a' = true)) →
    (opv op a b || keptB op a' b') = opv op (a || a') (b || b') := by
  intro op
  cases op <;> decide

theorem opv_kept : ∀ (op : ShpOp) (a a' b b' : Bool), ¬ (a = true ∧ a' = true) → ¬ (b = true ∧ b' = true) →
    ¬ (a' = true ∧ (b = true ∨ b' = true)) → ¬ (b' = true ∧ (a = true ∨ a' = true)) →
    (opv op a b ^^ keptB op a' b') = opv op (a || a') (b || b') := by
  intro op
  cases op <;> decide

theorem contoursOf_append (l l' : List Polygon) : contoursOf (l ++ l') = contoursOf l ++ contoursOf l' := by
  unfold contoursOf; rw [List.flatMap_append]

theorem outlinePts_append (l l' : List Polygon) : outlinePts (l ++ l') = outlinePts l ∪ outlinePts l' := by
  ext q
  unfold outlinePts
  rw [contoursOf_append]
  simp only [List.mem_append, Set.mem_setOf_eq, Set.mem_union]
  grind

theorem insidePts_append (l l' : List Polygon) : insidePts (l ++ l') = insidePts l ∪ insidePts l' := by
  ext q
  unfold insidePts
  simp only [List.mem_append, Set.mem_setOf_eq, Set.mem_union]
  grind

theorem insidePts_perm {l l' : List Polygon} (h : l.Perm l') : insidePts l = insidePts l' := by
  ext q
  exact ⟨fun ⟨p, hp, k⟩ => ⟨p, h.mem_iff.mp hp, k⟩, fun ⟨p, hp, k⟩ => ⟨p, h.mem_iff.mpr hp, k⟩⟩

theorem outlinePts_perm {l l' : List Polygon} (h : l.Perm l') : outlinePts l = outlinePts l' := by
  ext q
  have hc := h.flatMap_right polygonContours
  exact ⟨fun ⟨p, hp, k⟩ => ⟨p, hc.mem_iff.mp hp, k⟩, fun ⟨p, hp, k⟩ => ⟨p, hc.mem_iff.mpr hp, k⟩⟩

theorem genValid_perm {l l' : List Polygon} (h : l.Perm l') {q : Point} (k : GenValid l q) : GenValid l' q :=
  ⟨fun p hp => k.1 p (h.mem_iff.mpr hp), fun p hp => k.2.1 p (h.mem_iff.mpr hp),
    (h.pairwise_iff fun z w => z w.symm).mp k.2.2⟩

theorem genValid_nil (q : Point) : GenValid [] q :=
  ⟨fun _ hp => absurd hp List.not_mem_nil, fun _ hp => absurd hp List.not_mem_nil, List.Pairwise.nil⟩

theorem Combined.perm {op : ShpOp} {l1 l2 res res' : List Polygon} (h : Combined op l1 l2 res) (hp : res.Perm res') :
    Combined op l1 l2 res' := by
  have hc : (contoursOf res).Perm (contoursOf res') := hp.flatMap_right _
  exact ⟨fun c k => h.simple c (hc.mem_iff.mpr k), noOverlap_perm (hc.flatMap_right _) h.noOv,
    fun p k => h.orient p (hp.mem_iff.mpr k), by rw [← outlinePts_perm hp]; exact h.sub,
    fun q h1 h2 a b ha hb => by rw [← xorAll_perm hc]; exact h.odd q h1 h2 a b ha hb,
    fun k q h1 h2 a b ha hb => by rw [← insidePts_perm hp]; exact h.exact k q h1 h2 a b ha hb,
    fun k q h1 h2 => genValid_perm hp (h.valid k q h1 h2)⟩

open Classical in
theorem mem_kept (op : ShpOp) {U1 U2 : List Polygon} {q : Point} (h : ¬ (q ∈ insidePts U1 ∧ q ∈ insidePts U2)) :
    q ∈ insidePts (keptOf op U1 U2) ↔ keptB op (decide (q ∈ insidePts U1)) (decide (q ∈ insidePts U2)) = true := by
  have u : (q ∈ insidePts (U1 ++ U2)) ↔ (decide (q ∈ insidePts U1) ^^ decide (q ∈ insidePts U2)) = true := by
    rw [insidePts_append]
    show (q ∈ insidePts U1 ∨ q ∈ insidePts U2) ↔ _
    by_cases z1 : q ∈ insidePts U1 <;> by_cases z2 : q ∈ insidePts U2
    · exact absurd ⟨z1, z2⟩ h
    · simp [z1, z2]
    · simp [z1, z2]
    · simp [z1, z2]
  cases op
  · show q ∈ insidePts U1 ↔ decide (q ∈ insidePts U1) = true
    rw [decide_eq_true_iff]
  · show q ∈ insidePts [] ↔ false = true
    simp [insidePts]
  · exact u
  · exact u

theorem mem_lines {l : List Polygon} {s : Segment} : s ∈ linesOf l ↔ ∃ p ∈ l, ∃ c ∈ polygonContours p, s ∈ c.segments := by
  simp only [List.mem_flatMap]

open Classical in
theorem combine {op : ShpOp} {l1 l2 C1 C2 U1 U2 ps : List Polygon} (v1 : ValidPolygons l1) (v2 : ValidPolygons l2)
    (p1 : (C1 ++ U1).Perm l1) (p2 : (C2 ++ U2).Perm l2) (h : Ran op C1 C2 ps)
    (d1 : ∀ p ∈ U1, ∀ r ∈ l2, ∀ q, ¬ (p.locate q = .interior ∧ r.locate q = .interior))
    (d2 : ∀ p ∈ l1, ∀ r ∈ U2, ∀ q, ¬ (p.locate q = .interior ∧ r.locate q = .interior))
    (ap : op = .union ∨ op = .symmetricDifference → (∀ s ∈ linesOf U1, ∀ t ∈ linesOf l2, Apart s t) ∧
      ∀ s ∈ linesOf l1, ∀ t ∈ linesOf U2, Apart s t) :
    Combined op l1 l2 (ps ++ keptOf op U1 U2) := by
  have w1 := validPolygons_perm p1.symm v1
  have w2 := validPolygons_perm p2.symm v2
  have c1 : ValidPolygons C1 := ⟨fun p k => w1.1 p (by simp [k]),
    by have := w1.2.1; rw [List.flatMap_append] at this; exact ⟨fun s k => this.1 s (by simp [k]), (List.pairwise_append.mp this.2).1⟩,
    (List.pairwise_append.mp w1.2.2).1⟩
  have u1 : ValidPolygons U1 := ⟨fun p k => w1.1 p (by simp [k]),
    by have := w1.2.1; rw [List.flatMap_append] at this; exact ⟨fun s k => this.1 s (by simp [k]), (List.pairwise_append.mp this.2).2.1⟩,
    (List.pairwise_append.mp w1.2.2).2.1⟩
  have c2 : ValidPolygons C2 := ⟨fun p k => w2.1 p (by simp [k]),
    by have := w2.2.1; rw [List.flatMap_append] at this; exact ⟨fun s k => this.1 s (by simp [k]), (List.pairwise_append.mp this.2).1⟩,
    (List.pairwise_append.mp w2.2.2).1⟩
  have u2 : ValidPolygons U2 := ⟨fun p k => w2.1 p (by simp [k]),
    by have := w2.2.1; rw [List.flatMap_append] at this; exact ⟨fun s k => this.1 s (by simp [k]), (List.pairwise_append.mp this.2).2.1⟩,
    (List.pairwise_append.mp w2.2.2).2.1⟩
  have hk : ∀ p ∈ keptOf op U1 U2, p ∈ U1 ∨ p ∈ U2 := by
    intro p hp
    cases op <;> simp [keptOf] at hp <;> tauto
  have s1 : ∀ p, p ∈ C1 ∨ p ∈ U1 → p ∈ l1 := fun p k => p1.mem_iff.mp (List.mem_append.mpr k)
  have s2 : ∀ p, p ∈ C2 ∨ p ∈ U2 → p ∈ l2 := fun p k => p2.mem_iff.mp (List.mem_append.mpr k)
  have o1 : outlinePts l1 = outlinePts C1 ∪ outlinePts U1 := by rw [← outlinePts_perm p1, outlinePts_append]
  have o2 : outlinePts l2 = outlinePts C2 ∪ outlinePts U2 := by rw [← outlinePts_perm p2, outlinePts_append]
  -- sets of edges
  have edge : ∀ {l : List Polygon}, ValidPolygons l → ∀ t ∈ edgesOf l, ∃ t' ∈ linesOf l, segPts t = segPts t' := by
    intro l hv t ht
    obtain ⟨t', ht', e⟩ := List.mem_map.mp ((polygons_sets hv.1).subset (List.mem_map_of_mem (f := segPts) ht))
    exact ⟨t', ht', e.symm⟩
  have x1 : ∀ s ∈ linesOf C1, ∀ t ∈ linesOf U1, Apart s t := by
    have := w1.2.1.2; rw [List.flatMap_append] at this
    exact fun s hs t ht => (List.pairwise_append.mp this).2.2 s hs t ht
  have x2 : ∀ s ∈ linesOf C2, ∀ t ∈ linesOf U2, Apart s t := by
    have := w2.2.1.2; rw [List.flatMap_append] at this
    exact fun s hs t ht => (List.pairwise_append.mp this).2.2 s hs t ht
  have i1 : ∀ s ∈ linesOf U1, Disjoint (segPts s) (insidePts C1) := by
    intro s hs
    refine Set.disjoint_left.mpr fun q hq hi => ?_
    obtain ⟨r, hr, hri⟩ := hi
    obtain ⟨p, hp, c, hc, hsc⟩ := mem_lines.mp hs
    refine ((List.pairwise_append.mp w1.2.2).2.2 r hr p hp q).1 ⟨hri, ?_⟩
    have hb : p.locate q = .boundary := polygon_boundary_of_mem (u1.1 p hp) (by
      rw [segsPts_of_sets (polygon_sets (u1.1 p hp))]
      exact ⟨s, List.mem_flatMap.mpr ⟨c, hc, hsc⟩, hq⟩)
    rw [hb]; decide
  have hX : linesOf (keptOf op U1 U2) = (contoursOf (keptOf op U1 U2)).flatMap Contour.segments := (contoursOf_segments _).symm
  have sl : ∀ {A B : List Polygon}, (∀ p, p ∈ A → p ∈ B) → ∀ s, s ∈ linesOf A → s ∈ linesOf B := by
    intro A B k s hs
    obtain ⟨p, hp, r⟩ := mem_lines.mp hs
    exact mem_lines.mpr ⟨p, k p hp, r⟩
  have both : op = .union ∨ op = .symmetricDifference → keptOf op U1 U2 = U1 ++ U2 := by
    rintro (rfl | rfl) <;> rfl
  refine ⟨?_, ?_, ?_, ?_, ?_, ?_, ?_⟩
  · intro c hc
    rw [contoursOf_append] at hc
    rcases List.mem_append.mp hc with k | k
    · exact h.simple c k
    · obtain ⟨p, hp, hc⟩ := List.mem_flatMap.mp k
      rcases hk p hp with k | k
      · exact (u1.1 p k).1 c hc
      · exact (u2.1 p k).1 c hc
  · rw [contoursOf_append, List.flatMap_append, ← hX]
    refine h.noOv _ ?_ ?_ ?_
    · cases op
      · exact u1.2.1
      · exact ⟨(by intro s hs; cases hs), List.Pairwise.nil⟩
      · have ap := ap (Or.inl rfl)
        show NoOverlap (linesOf (U1 ++ U2))
        rw [linesOf_append]
        exact ⟨fun s k => (List.mem_append.mp k).elim (u1.2.1.1 s) (u2.2.1.1 s), List.pairwise_append.mpr ⟨u1.2.1.2, u2.2.1.2,
          fun s hs t ht => ap.1 s hs t (sl (fun p k => s2 p (Or.inr k)) t ht)⟩⟩
      · have ap := ap (Or.inr rfl)
        show NoOverlap (linesOf (U1 ++ U2))
        rw [linesOf_append]
        exact ⟨fun s k => (List.mem_append.mp k).elim (u1.2.1.1 s) (u2.2.1.1 s), List.pairwise_append.mpr ⟨u1.2.1.2, u2.2.1.2,
          fun s hs t ht => ap.1 s hs t (sl (fun p k => s2 p (Or.inr k)) t ht)⟩⟩
    · intro u hu t ht
      obtain ⟨t', ht', e⟩ := edge c1 t ht
      have : Apart t' u := by
        by_cases hop : op = .union ∨ op = .symmetricDifference
        · rw [both hop, linesOf_append] at hu
          rcases List.mem_append.mp hu with k | k
          · exact x1 t' ht' u k
          · exact (ap hop).2 t' (sl (fun p k => s1 p (Or.inl k)) t' ht') u k
        · cases op
          · exact x1 t' ht' u hu
          · cases hu
          · exact absurd (Or.inl rfl) hop
          · exact absurd (Or.inr rfl) hop
      unfold Apart at *
      rw [e]; exact this
    · intro u hu
      by_cases hop : op = .union ∨ op = .symmetricDifference
      · left
        intro t ht
        obtain ⟨t', ht', e⟩ := edge c2 t ht
        have : Apart t' u := by
          rw [both hop, linesOf_append] at hu
          rcases List.mem_append.mp hu with k | k
          · exact apart_symm ((ap hop).1 u k t' (sl (fun p k => s2 p (Or.inl k)) t' ht'))
          · exact x2 t' ht' u k
        unfold Apart at *
        rw [e]; exact this
      · cases op
        · exact Or.inr ⟨rfl, i1 u hu⟩
        · cases hu
        · exact absurd (Or.inl rfl) hop
        · exact absurd (Or.inr rfl) hop
  · intro p hp
    rcases List.mem_append.mp hp with k | k
    · exact Or.inr (Or.inr ⟨h.border p k, h.holes p k⟩)
    · rcases hk p k with k | k
      · exact Or.inl (s1 p (Or.inr k))
      · exact Or.inr (Or.inl (s2 p (Or.inr k)))
  · rw [outlinePts_append]
    rintro q (k | ⟨c, hc, k⟩)
    · rw [← segsPts_contours] at k
      have := h.sub k
      rw [segsPts_edges c1.1, segsPts_edges c2.1] at this
      rw [o1, o2]
      rcases this with k | k
      · exact Or.inl (Or.inl k)
      · exact Or.inr (Or.inl k)
    · obtain ⟨p, hp, hc⟩ := List.mem_flatMap.mp hc
      rcases hk p hp with k' | k'
      · exact Or.inl ⟨c, List.mem_flatMap.mpr ⟨p, s1 p (Or.inr k'), hc⟩, k⟩
      · exact Or.inr ⟨c, List.mem_flatMap.mpr ⟨p, s2 p (Or.inr k'), hc⟩, k⟩
  · intro q h1 h2 a b ha hb
    rw [o1] at h1
    rw [o2] at h2
    have f1 : ∀ {A B : Set Point} {q : Point}, q ∉ A ∪ B → q ∉ A ∧ q ∉ B := fun k => ⟨fun k' => k (Or.inl k'), fun k' => k (Or.inr k')⟩
    obtain ⟨h1c, h1u⟩ := f1 h1
    obtain ⟨h2c, h2u⟩ := f1 h2
    have hr : xorAll (fun c => decide (locatePointInRegion c q = .interior)) (contoursOf ps) = _ :=
      h.odd q (by rw [segsPts_edges c1.1]; exact h1c) (by rw [segsPts_edges c2.1]; exact h2c)
      (decide (q ∈ insidePts C1)) (decide (q ∈ insidePts C2)) decide_eq_true_iff decide_eq_true_iff
    rw [contoursOf_append, xorAll_append, hr]
    clear hr
    have y1 := xorAll_polygons u1 h1u
    have y2 := xorAll_polygons u2 h2u
    have ha' : a = true ↔ q ∈ insidePts C1 ∨ q ∈ insidePts U1 := by rw [ha, ← insidePts_perm p1, insidePts_append]; rfl
    have hb' : b = true ↔ q ∈ insidePts C2 ∨ q ∈ insidePts U2 := by rw [hb, ← insidePts_perm p2, insidePts_append]; rfl
    have e1 : ¬ (q ∈ insidePts C1 ∧ q ∈ insidePts U1) := by
      rintro ⟨⟨r, hr, k1⟩, ⟨p, hp, k2⟩⟩
      exact ((List.pairwise_append.mp w1.2.2).2.2 r hr p hp q).1 ⟨k1, by rw [k2]; decide⟩
    have e2 : ¬ (q ∈ insidePts C2 ∧ q ∈ insidePts U2) := by
      rintro ⟨⟨r, hr, k1⟩, ⟨p, hp, k2⟩⟩
      exact ((List.pairwise_append.mp w2.2.2).2.2 r hr p hp q).1 ⟨k1, by rw [k2]; decide⟩
    have e3 : ¬ (q ∈ insidePts U1 ∧ (q ∈ insidePts C2 ∨ q ∈ insidePts U2)) := by
      rintro ⟨⟨r, hr, k1⟩, k⟩
      obtain ⟨p, hp, k2⟩ | ⟨p, hp, k2⟩ := k
      · exact d1 r hr p (s2 p (Or.inl hp)) q ⟨k1, k2⟩
      · exact d1 r hr p (s2 p (Or.inr hp)) q ⟨k1, k2⟩
    have e4 : ¬ (q ∈ insidePts U2 ∧ (q ∈ insidePts C1 ∨ q ∈ insidePts U1)) := by
      rintro ⟨⟨r, hr, k1⟩, k⟩
      obtain ⟨p, hp, k2⟩ | ⟨p, hp, k2⟩ := k
      · exact d2 p (s1 p (Or.inl hp)) r hr q ⟨k2, k1⟩
      · exact d2 p (s1 p (Or.inr hp)) r hr q ⟨k2, k1⟩
    have hkx : xorAll (fun c => decide (locatePointInRegion c q = .interior)) (contoursOf (keptOf op U1 U2)) =
        keptB op (decide (q ∈ insidePts U1)) (decide (q ∈ insidePts U2)) := by
      have y1' : xorAll (fun c => decide (locatePointInRegion c q = .interior)) (contoursOf U1) = decide (q ∈ insidePts U1) := by
        rw [Bool.eq_iff_iff, y1, decide_eq_true_iff]
      have y2' : xorAll (fun c => decide (locatePointInRegion c q = .interior)) (contoursOf U2) = decide (q ∈ insidePts U2) := by
        rw [Bool.eq_iff_iff, y2, decide_eq_true_iff]
      cases op
      · exact y1'
      · rfl
      · show xorAll _ (contoursOf (U1 ++ U2)) = _
        rw [contoursOf_append, xorAll_append, y1', y2']; rfl
      · show xorAll _ (contoursOf (U1 ++ U2)) = _
        rw [contoursOf_append, xorAll_append, y1', y2']; rfl
    rw [hkx]
    have ea : a = (decide (q ∈ insidePts C1) || decide (q ∈ insidePts U1)) := by
      rw [Bool.eq_iff_iff, ha', Bool.or_eq_true, decide_eq_true_iff, decide_eq_true_iff]
    have eb : b = (decide (q ∈ insidePts C2) || decide (q ∈ insidePts U2)) := by
      rw [Bool.eq_iff_iff, hb', Bool.or_eq_true, decide_eq_true_iff, decide_eq_true_iff]
    rw [ea, eb]
    exact opv_kept op _ _ _ _ (by simpa using e1) (by simpa using e2) (by simpa using e3) (by simpa using e4)
  · intro hc q h1 h2 a b ha hb
    rw [o1] at h1
    rw [o2] at h2
    have f1 : ∀ {A B : Set Point} {q : Point}, q ∉ A ∪ B → q ∉ A ∧ q ∉ B := fun k => ⟨fun k' => k (Or.inl k'), fun k' => k (Or.inr k')⟩
    obtain ⟨h1c, h1u⟩ := f1 h1
    obtain ⟨h2c, h2u⟩ := f1 h2
    have hr : xorAll (fun c => decide (locatePointInRegion c q = .interior)) (contoursOf ps) = _ :=
      h.odd q (by rw [segsPts_edges c1.1]; exact h1c) (by rw [segsPts_edges c2.1]; exact h2c)
      (decide (q ∈ insidePts C1)) (decide (q ∈ insidePts C2)) decide_eq_true_iff decide_eq_true_iff
    rw [Bool.eq_iff_iff] at hr
    have hr' : q ∈ insidePts ps ↔ _ := (h.located (clean_sub p1 p2 hc) q (by rw [segsPts_edges c1.1]; exact h1c)
      (by rw [segsPts_edges c2.1]; exact h2c)).trans hr
    clear hr
    have y1 := xorAll_polygons u1 h1u
    have y2 := xorAll_polygons u2 h2u
    have ha' : a = true ↔ q ∈ insidePts C1 ∨ q ∈ insidePts U1 := by rw [ha, ← insidePts_perm p1, insidePts_append]; rfl
    have hb' : b = true ↔ q ∈ insidePts C2 ∨ q ∈ insidePts U2 := by rw [hb, ← insidePts_perm p2, insidePts_append]; rfl
    have e1 : ¬ (q ∈ insidePts C1 ∧ q ∈ insidePts U1) := by
      rintro ⟨⟨r, hr, k1⟩, ⟨p, hp, k2⟩⟩
      exact ((List.pairwise_append.mp w1.2.2).2.2 r hr p hp q).1 ⟨k1, by rw [k2]; decide⟩
    have e2 : ¬ (q ∈ insidePts C2 ∧ q ∈ insidePts U2) := by
      rintro ⟨⟨r, hr, k1⟩, ⟨p, hp, k2⟩⟩
      exact ((List.pairwise_append.mp w2.2.2).2.2 r hr p hp q).1 ⟨k1, by rw [k2]; decide⟩
    have e3 : ¬ (q ∈ insidePts U1 ∧ (q ∈ insidePts C2 ∨ q ∈ insidePts U2)) := by
      rintro ⟨⟨r, hr, k1⟩, k⟩
      obtain ⟨p, hp, k2⟩ | ⟨p, hp, k2⟩ := k
      · exact d1 r hr p (s2 p (Or.inl hp)) q ⟨k1, k2⟩
      · exact d1 r hr p (s2 p (Or.inr hp)) q ⟨k1, k2⟩
    have e4 : ¬ (q ∈ insidePts U2 ∧ (q ∈ insidePts C1 ∨ q ∈ insidePts U1)) := by
      rintro ⟨⟨r, hr, k1⟩, k⟩
      obtain ⟨p, hp, k2⟩ | ⟨p, hp, k2⟩ := k
      · exact d2 p (s1 p (Or.inl hp)) r hr q ⟨k2, k1⟩
      · exact d2 p (s1 p (Or.inr hp)) r hr q ⟨k2, k1⟩
    have hkx := mem_kept op (fun k : q ∈ insidePts U1 ∧ q ∈ insidePts U2 => e3 ⟨k.1, Or.inr k.2⟩)
    have ea : a = (decide (q ∈ insidePts C1) || decide (q ∈ insidePts U1)) := by
      rw [Bool.eq_iff_iff, ha', Bool.or_eq_true, decide_eq_true_iff, decide_eq_true_iff]
    have eb : b = (decide (q ∈ insidePts C2) || decide (q ∈ insidePts U2)) := by
      rw [Bool.eq_iff_iff, hb', Bool.or_eq_true, decide_eq_true_iff, decide_eq_true_iff]
    rw [insidePts_append, ea, eb, ← opv_kept_or op _ _ _ _ (by simpa using e1) (by simpa using e2) (by simpa using e3)
      (by simpa using e4), Bool.or_eq_true]
    exact or_congr hr' hkx
  · intro hc q h1 h2
    rw [o1] at h1
    rw [o2] at h2
    have f1 : ∀ {A B : Set Point} {q : Point}, q ∉ A ∪ B → q ∉ A ∧ q ∉ B := fun k => ⟨fun k' => k (Or.inl k'), fun k' => k (Or.inr k')⟩
    obtain ⟨h1c, h1u⟩ := f1 h1
    obtain ⟨h2c, h2u⟩ := f1 h2
    have hr : xorAll (fun c => decide (locatePointInRegion c q = .interior)) (contoursOf ps) = _ :=
      h.odd q (by rw [segsPts_edges c1.1]; exact h1c) (by rw [segsPts_edges c2.1]; exact h2c)
      (decide (q ∈ insidePts C1)) (decide (q ∈ insidePts C2)) decide_eq_true_iff decide_eq_true_iff
    have hr0 := hr
    rw [Bool.eq_iff_iff] at hr0
    clear hr
    have hgv := h.valid (clean_sub p1 p2 hc) q (by rw [segsPts_edges c1.1]; exact h1c)
      (by rw [segsPts_edges c2.1]; exact h2c)
    have hr' : q ∈ insidePts ps ↔ _ := (h.located (clean_sub p1 p2 hc) q (by rw [segsPts_edges c1.1]; exact h1c)
      (by rw [segsPts_edges c2.1]; exact h2c)).trans hr0
    have e1 : ¬ (q ∈ insidePts C1 ∧ q ∈ insidePts U1) := by
      rintro ⟨⟨r, hr, k1⟩, ⟨p, hp, k2⟩⟩
      exact ((List.pairwise_append.mp w1.2.2).2.2 r hr p hp q).1 ⟨k1, by rw [k2]; decide⟩
    have e2 : ¬ (q ∈ insidePts C2 ∧ q ∈ insidePts U2) := by
      rintro ⟨⟨r, hr, k1⟩, ⟨p, hp, k2⟩⟩
      exact ((List.pairwise_append.mp w2.2.2).2.2 r hr p hp q).1 ⟨k1, by rw [k2]; decide⟩
    have e3 : ¬ (q ∈ insidePts U1 ∧ (q ∈ insidePts C2 ∨ q ∈ insidePts U2)) := by
      rintro ⟨⟨r, hr, k1⟩, k⟩
      obtain ⟨p, hp, k2⟩ | ⟨p, hp, k2⟩ := k
      · exact d1 r hr p (s2 p (Or.inl hp)) q ⟨k1, k2⟩
      · exact d1 r hr p (s2 p (Or.inr hp)) q ⟨k1, k2⟩
    have e4 : ¬ (q ∈ insidePts U2 ∧ (q ∈ insidePts C1 ∨ q ∈ insidePts U1)) := by
      rintro ⟨⟨r, hr, k1⟩, k⟩
      obtain ⟨p, hp, k2⟩ | ⟨p, hp, k2⟩ := k
      · exact d2 p (s1 p (Or.inl hp)) r hr q ⟨k2, k1⟩
      · exact d2 p (s1 p (Or.inr hp)) r hr q ⟨k2, k1⟩
    have ne : ¬ (q ∈ insidePts ps ∧ (q ∈ insidePts U1 ∨ q ∈ insidePts U2)) := by
      rintro ⟨k1, k2⟩
      have n1 : q ∉ insidePts C1 := fun k => by
        rcases k2 with z | z
        · exact e1 ⟨k, z⟩
        · exact e4 ⟨z, Or.inl k⟩
      have n2 : q ∉ insidePts C2 := fun k => by
        rcases k2 with z | z
        · exact e3 ⟨z, Or.inl k⟩
        · exact e2 ⟨k, z⟩
      rw [hr', decide_eq_false n1, decide_eq_false n2] at k1
      revert k1
      cases op <;> decide
    have kv : GenValid (keptOf op U1 U2) q := by
      have both : ∀ p ∈ keptOf op U1 U2, ValidPolygon p := fun p hp => by
        rcases hk p hp with k | k
        · exact u1.1 p k
        · exact u2.1 p k
      have pw1 : U1.Pairwise fun p r => ¬ (p.locate q = .interior ∧ r.locate q = .interior) :=
        u1.2.2.imp fun k z => (k q).1 ⟨z.1, by rw [z.2]; decide⟩
      have pw2 : U2.Pairwise fun p r => ¬ (p.locate q = .interior ∧ r.locate q = .interior) :=
        u2.2.2.imp fun k z => (k q).1 ⟨z.1, by rw [z.2]; decide⟩
      have pw : (U1 ++ U2).Pairwise fun p r => ¬ (p.locate q = .interior ∧ r.locate q = .interior) :=
        List.pairwise_append.mpr ⟨pw1, pw2, fun p hp r hr => d1 p hp r (s2 r (Or.inr hr)) q⟩
      refine ⟨fun p hp c hc k => ((both p hp).2.2.1 c hc q).1 k, fun p hp => (both p hp).2.2.2.imp fun k z =>
        (k q).1 ⟨z.1, by rw [z.2]; decide⟩, ?_⟩
      cases op
      · exact pw1
      · exact List.Pairwise.nil
      · exact pw
      · exact pw
    refine ⟨?_, ?_, List.pairwise_append.mpr ⟨hgv.2.2, kv.2.2, ?_⟩⟩
    · intro p hp
      rcases List.mem_append.mp hp with k | k
      · exact hgv.1 p k
      · exact kv.1 p k
    · intro p hp
      rcases List.mem_append.mp hp with k | k
      · exact hgv.2.1 p k
      · exact kv.2.1 p k
    · rintro p hp r hr ⟨k1, k2⟩
      refine ne ⟨⟨p, hp, k1⟩, ?_⟩
      rcases hk r hr with z | z
      · exact Or.inl ⟨r, z, k2⟩
      · exact Or.inr ⟨r, z, k2⟩

end Rene
