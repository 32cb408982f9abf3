import Verif.Lemmas.RelateShaped

/-! C54: `relate_to` of two polygons or multipolygons.

`ShapedRel` (`Verif/Spec/ShapedRelation.lean`) says what each relation means in terms of where points are located;
`ValidPolygon(s)` (`Verif/Spec/Shapes.lean`), `Oriented` and `Nested` (`Verif/Spec/ShapedRelation.lean`) are the
conditions for operands. -/

namespace Rene
open Spec Sweep

/-- C54: at most one relation is correct, so the results below are the only correct ones. -/
theorem C54_unique {first second : Point → Location} (h1 : (outline first).Nonempty) (h2 : (outline second).Nonempty)
    {r r' : Relation} (h : ShapedRel first second r) (h' : ShapedRel first second r') : r = r' := by
  have so : ∀ L : Point → Location, outline L ⊆ region L := fun L z (hz : L z = _) => show L z ≠ _ by rw [hz]; decide
  have si : ∀ L : Point → Location, inner L ⊆ region L := fun L z (hz : L z = _) => show L z ≠ _ by rw [hz]; decide
  have oi : ∀ (L : Point → Location) z, z ∈ outline L → z ∈ inner L → False := fun L z (a : L z = _) (b : L z = _) => by
    rw [a] at b; cases b
  have o1 := so first
  have o2 := so second
  have i1 := si first
  have i2 := si second
  have x1 := oi first
  have x2 := oi second
  clear so si oi
  obtain ⟨z1, z1h⟩ := h1
  obtain ⟨z2, z2h⟩ := h2
  have dj : ∀ {z}, region first ∩ region second = ∅ → z ∈ region first → z ∈ region second → False := fun {z} k a b => (Set.ext_iff.mp k z).mp ⟨a, b⟩
  cases r <;> cases r' <;> simp only [ShapedRel] at h h' <;> try rfl
  all_goals exfalso
  all_goals first
    | exact h
    | exact h'
    | (first
        | exact h.2.1 (h'.le)
        | exact h.2.2.1 (h'.le)
        | exact h.2.1 (h'.1.1)
        | exact h.2.2 (h'.1.1)
        | exact h.2.2.1 (h'.1.1)
        | exact h.2.2.2 (h'.1.1)
        | exact h'.2.1 (h.le)
        | exact h'.2.2.1 (h.le)
        | exact h'.2.1 (h.1.1)
        | exact h'.2.2 (h.1.1)
        | exact h'.2.2.1 (h.1.1)
        | exact h'.2.2.2 (h.1.1)
        | exact h.1.2 h'.1.1
        | exact h.1.2 h'.ge
        | exact h.1.2 h'.le
        | exact h'.1.2 h.ge
        | exact h'.1.2 h.le)
    | (obtain ⟨w, wa, wb⟩ := h.1; exact dj h' (o1 wa) (o2 wb))
    | (obtain ⟨w, wa, wb⟩ := h'.1; exact dj h (o1 wa) (o2 wb))
    | (obtain ⟨w, wa, wb⟩ := h.1; exact dj h' (i1 wa) (i2 wb))
    | (obtain ⟨w, wa, wb⟩ := h'.1; exact dj h (i1 wa) (i2 wb))
    | exact dj h (o1 z1h) (h'.le (o1 z1h))
    | exact dj h' (o1 z1h) (h.le (o1 z1h))
    | exact dj h (o1 z1h) (h'.1.1 (o1 z1h))
    | exact dj h' (o1 z1h) (h.1.1 (o1 z1h))
    | exact dj h (h'.1.1 (o2 z2h)) (o2 z2h)
    | exact dj h' (h.1.1 (o2 z2h)) (o2 z2h)
    | (obtain ⟨w, wa, wb⟩ := h.1; exact (Set.ext_iff.mp h'.2.1 w).mp ⟨wa, wb⟩)
    | (obtain ⟨w, wa, wb⟩ := h'.1; exact (Set.ext_iff.mp h.2.1 w).mp ⟨wa, wb⟩)
    | exact x2 z1 (h.2 z1h) (h'.2 (o1 z1h))
    | exact x2 z1 (h'.2 z1h) (h.2 (o1 z1h))
    | exact x1 z2 (h.2 z2h) (h'.2 (o2 z2h))
    | exact x1 z2 (h'.2 z2h) (h.2 (o2 z2h))
    | (obtain ⟨w, wa, wb⟩ := h.2.2; exact x2 w (h'.2 wa) wb)
    | (obtain ⟨w, wa, wb⟩ := h'.2.2; exact x2 w (h.2 wa) wb)
    | (obtain ⟨w, wa, wb⟩ := h.2.2; exact x1 w (h'.2 wa) wb)
    | (obtain ⟨w, wa, wb⟩ := h'.2.2; exact x1 w (h.2 wa) wb)
    | (obtain ⟨w, wa, wb⟩ := h.2.1; exact x2 w wb (h'.2 (o1 wa)))
    | (obtain ⟨w, wa, wb⟩ := h'.2.1; exact x2 w wb (h.2 (o1 wa)))
    | (obtain ⟨w, wa, wb⟩ := h.2.1; exact x1 w wb (h'.2 (o2 wa)))
    | (obtain ⟨w, wa, wb⟩ := h'.2.1; exact x1 w wb (h.2 (o2 wa)))

/-! ### Operands -/

section
variable {l1 l2 : List Polygon} {B1 B2 : Box} {M1 M2 : ℚ}

/-- The conditions for an operand with the polygons `l`. -/
structure Valid' (l : List Polygon) : Prop where
  valid : ValidPolygons l
  nested : Nested l
  oriented : ∀ p ∈ l, Oriented p

theorem disjoint_of_boxes (h1 : ∀ p ∈ l1, ValidPolygon p) (h2 : ∀ p ∈ l2, ValidPolygon p)
    (h : ∀ z ∈ boxesPts l1, z ∉ boxesPts l2) : ShapedRel (loc l1) (loc l2) .disjoint := by
  show region _ ∩ region _ = ∅
  ext z
  exact ⟨fun ⟨a, b⟩ => h z (region_boxes h1 a) (region_boxes h2 b), fun k => absurd k (by simp)⟩

theorem disjoint_of_box (b1 : boxesPts l1 ⊆ boxPts B1) (b2 : boxesPts l2 ⊆ boxPts B2) (h : B1.disjointWith B2 = true) :
    ∀ z ∈ boxesPts l1, z ∉ boxesPts l2 := fun z a b =>
  (Set.ext_iff.mp (inter_empty_of_disjointWith h) z).mp ⟨b1 a, b2 b⟩

theorem boxes_of_multipolygon (m : Multipolygon) : boxesPts m.polygons ⊆ boxPts m.boundingBox := by
  rintro z ⟨p, hp, k⟩
  obtain ⟨a1, a2, a3, a4⟩ := multipolygon_le m hp
  obtain ⟨k1, k2, k3, k4⟩ := k
  exact ⟨a1.trans k1, k2.trans a2, a3.trans k3, k4.trans a4⟩

theorem boxes_of_polygon (p : Polygon) : boxesPts [p] ⊆ boxPts p.boundingBox := by
  rintro z ⟨r, hr, k⟩
  rw [List.mem_singleton.mp hr] at k
  exact k

/-- The polygons which are passed to the sweep. -/
def nearB (K : Box) (m : ℚ) (p : Polygon) : Bool := !p.boundingBox.disjointWith K && decide (p.boundingBox.minX ≤ m)

theorem near_filter (K : Box) (m : ℚ) (l : List Polygon) :
    (l.filter fun p => !p.boundingBox.disjointWith K).filter (fun p => decide (p.boundingBox.minX ≤ m)) =
      l.filter (nearB K m) := by
  rw [List.filter_filter]
  refine List.filter_congr fun p _ => ?_
  unfold nearB
  rw [Bool.and_comm]

/-- The candidates end before `M`. -/
def Ends (l : List Polygon) (K : Box) (M : ℚ) : Prop :=
  ∀ p ∈ l, p.boundingBox.disjointWith K = false → p.boundingBox.maxX ≤ M

theorem ends_max (l : List Polygon) (K : Box) :
    Ends l K (listMax ((l.filter fun p => !p.boundingBox.disjointWith K).map fun p => p.boundingBox.maxX)) := by
  intro p hp k
  exact le_listMax (List.mem_map_of_mem (f := fun p : Polygon => p.boundingBox.maxX) (List.mem_filter.mpr ⟨hp, by rw [k]; rfl⟩))

theorem ends_polygon (p : Polygon) (K : Box) : Ends [p] K p.boundingBox.maxX := by
  intro r hr _
  rw [List.mem_singleton.mp hr]

theorem near_operand (v : Valid' l1) (b1 : boxesPts l1 ⊆ boxPts B1) (b2 : boxesPts l2 ⊆ boxPts B2) (e1 : Ends l1 B2 M1)
    (e2 : Ends l2 B1 M2) : Operand' l1 B1 (nearB B2 (min M1 M2)) B2 (boxesPts l2) := by
  refine ⟨v.valid, v.nested, v.oriented, b1, fun p hp k => ?_, fun p hp k z hz hb => ?_⟩
  · unfold nearB at k
    rw [Bool.and_eq_true, Bool.not_eq_true'] at k
    exact k.1
  · have hn : p.boundingBox.disjointWith B2 = false := by
      by_contra q
      rw [Bool.not_eq_false] at q
      exact (Set.ext_iff.mp (inter_empty_of_disjointWith q) z).mp ⟨hb, b2 hz⟩
    unfold nearB at k
    rw [hn, Bool.not_false, Bool.true_and, decide_eq_false_iff_not, not_le] at k
    obtain ⟨r, hr, hzr⟩ := hz
    have hr' : r.boundingBox.disjointWith B1 = false := by
      by_contra q
      rw [Bool.not_eq_false] at q
      exact (Set.ext_iff.mp (inter_empty_of_disjointWith q) z).mp ⟨hzr, b1 ⟨p, hp, hb⟩⟩
    have a1 := e1 p hp hn
    have a2 := e2 r hr hr'
    have := hb.1
    have := hb.2.1
    have := hzr.2.1
    rcases min_choice M1 M2 with q | q <;> rw [q] at k <;> linarith

/-- An operand none of whose polygons is left out. -/
theorem whole_operand {p : Polygon} (v : Valid' [p]) (h : p.boundingBox.disjointWith B2 = false) {U : Set Point} :
    Operand' [p] p.boundingBox (fun _ => true) B2 U := by
  refine ⟨v.valid, v.nested, v.oriented, boxes_of_polygon p, fun r hr _ => ?_, fun r _ k => absurd k (by decide)⟩
  rw [List.mem_singleton.mp hr]; exact h

theorem near_disjoint (v1 : Valid' l1) (v2 : ∀ p ∈ l2, ValidPolygon p) {f : Polygon → Bool}
    (O : Operand' l1 B1 f B2 (boxesPts l2)) (h : l1.filter f = []) : ShapedRel (loc l1) (loc l2) .disjoint := by
  refine disjoint_of_boxes v1.valid.1 v2 ?_
  rintro z ⟨p, hp, hb⟩ hz
  refine O.drop p hp ?_ z hz hb
  rcases hf : f p with _ | _
  · rfl
  · exact absurd (List.mem_filter.mpr ⟨hp, hf⟩) (by rw [h]; exact List.not_mem_nil)

theorem ShapedRel_symm_disjoint {L L' : Point → Location} (h : ShapedRel L L' .disjoint) : ShapedRel L' L .disjoint := by
  show region _ ∩ region _ = ∅
  rw [Set.inter_comm]; exact h

theorem cand_disjoint (v1 : ∀ p ∈ l1, ValidPolygon p) (v2 : ∀ p ∈ l2, ValidPolygon p) (b2 : boxesPts l2 ⊆ boxPts B2)
    (h : (l1.filter fun p => !p.boundingBox.disjointWith B2) = []) : ShapedRel (loc l1) (loc l2) .disjoint := by
  refine disjoint_of_boxes v1 v2 ?_
  rintro z ⟨p, hp, hb⟩ hz
  have : p.boundingBox.disjointWith B2 = true := by
    by_contra q
    have hm : p ∈ l1.filter fun p => !p.boundingBox.disjointWith B2 :=
      List.mem_filter.mpr ⟨hp, by rw [Bool.not_eq_true] at q; rw [q]; rfl⟩
    rw [h] at hm
    exact absurd hm List.not_mem_nil
  exact (Set.ext_iff.mp (inter_empty_of_disjointWith this) z).mp ⟨hb, b2 hz⟩

/-- At least one of the candidates begins in time. -/
theorem near_ne_nil (h : (l1.filter fun p => !p.boundingBox.disjointWith B2) ≠ []) (hv : ∀ p ∈ l1, ValidPolygon p) :
    l1.filter (nearB B2 (min B2.maxX
      (listMax ((l1.filter fun p => !p.boundingBox.disjointWith B2).map fun p => p.boundingBox.maxX)))) ≠ [] := by
  obtain ⟨p, hp⟩ := List.exists_mem_of_ne_nil _ h
  obtain ⟨h1, h2⟩ := List.mem_filter.mp hp
  rw [Bool.not_eq_true'] at h2
  have hle : p.boundingBox.minX ≤ p.boundingBox.maxX := by
    obtain ⟨hs, ⟨z, hz, _⟩, _⟩ := simple_tight ((hv p h1).1 p.border (by simp [polygonContours]))
    exact (hs hz).1.trans (hs hz).2.1
  have hm := ends_max l1 B2 p h1 h2
  intro e
  refine absurd (List.mem_filter.mpr ⟨h1, ?_⟩) (by rw [e]; exact List.not_mem_nil)
  unfold nearB
  rw [h2, Bool.not_false, Bool.true_and, decide_eq_true_eq]
  refine le_min ?_ (hle.trans hm)
  unfold Box.disjointWith at h2
  simp only [Bool.or_eq_false_iff, decide_eq_false_iff_not, not_lt] at h2
  exact h2.1.2

theorem min_or {f1 f2 : Polygon → Bool} (e1 : ∀ p ∈ l1, f1 p = true → p.boundingBox.maxX ≤ M1)
    (e2 : ∀ p ∈ l2, f2 p = true → p.boundingBox.maxX ≤ M2) :
    (∀ p ∈ l1, f1 p = true → p.boundingBox.maxX ≤ min M1 M2) ∨ ∀ p ∈ l2, f2 p = true → p.boundingBox.maxX ≤ min M1 M2 := by
  rcases min_choice M1 M2 with k | k <;> rw [k]
  · exact Or.inl e1
  · exact Or.inr e2

theorem near_ends {K : Box} {M m : ℚ} (e : Ends l1 K M) : ∀ p ∈ l1, nearB K m p = true → p.boundingBox.maxX ≤ M := by
  intro p hp k
  unfold nearB at k
  rw [Bool.and_eq_true, Bool.not_eq_true'] at k
  exact e p hp k.1

theorem valid_single {p : Polygon} (h : ValidPolygon p) (o : Oriented p) : Valid' [p] :=
  ⟨validPolygons_single h, List.pairwise_singleton _ _, fun r hr => by rw [List.mem_singleton.mp hr]; exact o⟩

theorem loc_single (p : Polygon) : loc [p] = p.locate := by
  funext z
  unfold loc locateInPolygons
  split
  · rfl
  · rename_i h
    rw [not_not] at h
    rw [h]; rfl
end

/-! ### C54 -/

section
variable {p r : Polygon} {m n : Multipolygon}

/-- C54 for two polygons: `relate_to` returns the relation of the two regions. -/
theorem C54_relate_polygon_polygon (h1 : ValidPolygon p) (h2 : ValidPolygon r) (o1 : Oriented p) (o2 : Oriented r) :
    ∃ rel, relatePolygonToPolygon p r = .ok rel ∧ ShapedRel p.locate r.locate rel := by
  rw [← loc_single, ← loc_single]
  unfold relatePolygonToPolygon
  split
  · rename_i h
    exact ⟨_, rfl, disjoint_of_boxes (validPolygons_single h1).1 (validPolygons_single h2).1
      (disjoint_of_box (boxes_of_polygon p) (boxes_of_polygon r) h)⟩
  · rename_i h
    rw [Bool.not_eq_true] at h
    have h' := h
    rw [disjointWith_symm] at h'
    exact relateShaped_spec (l1 := [p]) (l2 := [r]) (f1 := fun _ => true) (f2 := fun _ => true)
      (whole_operand (valid_single h1 o1) h) (whole_operand (valid_single h2 o2) h') (by simp) (by simp)
      (min_or (fun q hq _ => by rw [List.mem_singleton.mp hq]) fun q hq _ => by rw [List.mem_singleton.mp hq])

/-- C54 for a polygon and a multipolygon. -/
theorem C54_relate_polygon_multipolygon (h1 : ValidPolygon p) (h2 : ValidPolygons n.polygons) (o1 : Oriented p)
    (o2 : ∀ r ∈ n.polygons, Oriented r) (hn : Nested n.polygons) :
    ∃ rel, relatePolygonToMultipolygon p n = .ok rel ∧ ShapedRel p.locate n.locate rel := by
  rw [← loc_single]
  show ∃ rel, _ ∧ ShapedRel (loc [p]) (loc n.polygons) rel
  have v1 := valid_single h1 o1
  have v2 : Valid' n.polygons := ⟨h2, hn, o2⟩
  have b1 := boxes_of_polygon p
  have b2 := boxes_of_multipolygon n
  unfold relatePolygonToMultipolygon
  simp only
  split
  · rename_i h
    exact ⟨_, rfl, disjoint_of_boxes v1.valid.1 h2.1 (disjoint_of_box b1 b2 h)⟩
  rename_i h
  rw [Bool.not_eq_true] at h
  split
  · rename_i hc
    exact ⟨_, rfl, ShapedRel_symm_disjoint (cand_disjoint h2.1 v1.valid.1 b1 hc)⟩
  rename_i hc
  rw [near_filter]
  split
  · rename_i hi
    exact absurd hi (near_ne_nil hc h2.1)
  rename_i hi
  have O2 := near_operand v2 b2 b1 (ends_max n.polygons p.boundingBox) (ends_polygon p n.boundingBox)
  rw [min_comm] at O2
  exact relateShaped_spec (l1 := [p]) (f1 := fun _ => true) (whole_operand v1 h) O2 (by simp) hi
    (min_or (fun q hq _ => by rw [List.mem_singleton.mp hq]) (near_ends (ends_max _ _)))

/-- C54 for a multipolygon and a polygon. -/
theorem C54_relate_multipolygon_polygon (h1 : ValidPolygons m.polygons) (h2 : ValidPolygon r)
    (o1 : ∀ p ∈ m.polygons, Oriented p) (o2 : Oriented r) (hn : Nested m.polygons) :
    ∃ rel, relateMultipolygonToPolygon m r = .ok rel ∧ ShapedRel m.locate r.locate rel := by
  rw [← loc_single r]
  show ∃ rel, _ ∧ ShapedRel (loc m.polygons) (loc [r]) rel
  have v2 := valid_single h2 o2
  have v1 : Valid' m.polygons := ⟨h1, hn, o1⟩
  have b2 := boxes_of_polygon r
  have b1 := boxes_of_multipolygon m
  unfold relateMultipolygonToPolygon
  simp only
  split
  · rename_i h
    exact ⟨_, rfl, disjoint_of_boxes h1.1 v2.valid.1 (disjoint_of_box b1 b2 h)⟩
  rename_i h
  rw [Bool.not_eq_true, disjointWith_symm] at h
  split
  · rename_i hc
    exact ⟨_, rfl, cand_disjoint h1.1 v2.valid.1 b2 hc⟩
  rename_i hc
  rw [near_filter]
  split
  · rename_i hi
    exact absurd hi (near_ne_nil hc h1.1)
  rename_i hi
  have O1 := near_operand v1 b1 b2 (ends_max m.polygons r.boundingBox) (ends_polygon r m.boundingBox)
  rw [min_comm] at O1
  exact relateShaped_spec (l2 := [r]) (f2 := fun _ => true) O1 (whole_operand v2 h) hi (by simp)
    (min_or (fun q hq _ => by rw [List.mem_singleton.mp hq]) (near_ends (ends_max _ _))).symm

/-- C54 for two multipolygons. -/
theorem C54_relate_multipolygon_multipolygon (h1 : ValidPolygons m.polygons) (h2 : ValidPolygons n.polygons)
    (o1 : ∀ p ∈ m.polygons, Oriented p) (o2 : ∀ p ∈ n.polygons, Oriented p) (n1 : Nested m.polygons)
    (n2 : Nested n.polygons) :
    ∃ rel, relateMultipolygonToMultipolygon m n = .ok rel ∧ ShapedRel m.locate n.locate rel := by
  show ∃ rel, _ ∧ ShapedRel (loc m.polygons) (loc n.polygons) rel
  have v1 : Valid' m.polygons := ⟨h1, n1, o1⟩
  have v2 : Valid' n.polygons := ⟨h2, n2, o2⟩
  have b1 := boxes_of_multipolygon m
  have b2 := boxes_of_multipolygon n
  unfold relateMultipolygonToMultipolygon
  simp only
  split
  · rename_i h
    exact ⟨_, rfl, disjoint_of_boxes h1.1 h2.1 (disjoint_of_box b1 b2 h)⟩
  split
  · rename_i hc
    exact ⟨_, rfl, cand_disjoint h1.1 h2.1 b2 hc⟩
  split
  · rename_i hc
    exact ⟨_, rfl, ShapedRel_symm_disjoint (cand_disjoint h2.1 h1.1 b1 hc)⟩
  have O1 := near_operand v1 b1 b2 (ends_max m.polygons n.boundingBox) (ends_max n.polygons m.boundingBox)
  have O2 := near_operand v2 b2 b1 (ends_max n.polygons m.boundingBox) (ends_max m.polygons n.boundingBox)
  rw [min_comm] at O2
  rw [near_filter, near_filter]
  split
  · rename_i hi
    exact ⟨_, rfl, near_disjoint v1 h2.1 O1 hi⟩
  rename_i hi1
  split
  · rename_i hi
    exact ⟨_, rfl, ShapedRel_symm_disjoint (near_disjoint v2 h1.1 O2 hi)⟩
  rename_i hi2
  exact relateShaped_spec O1 O2 hi1 hi2 (min_or (near_ends (ends_max _ _)) (near_ends (ends_max _ _)))

end

end Rene
