import Verif.Props.Shaped

/-! # C57: exact boolean operations between polygons and multipolygons

`CleanOperands` and `Exact` are those of `Verif/Spec/Shaped.lean`.  Without `CleanOperands` the conclusion fails:
see `C52_hole_in_wrong_polygon`.  It holds for all polygons without holes: see `Verif/Props/ShapedHoleless.lean`. -/

namespace Rene
open Spec Rene.Sweep

section
variable {p r : Polygon} {m n : Multipolygon}

/-- C57 `polygon - polygon`. -/
theorem C57_subtract_polygon_polygon (h1 : ValidPolygon p) (h2 : ValidPolygon r)
    (ho : CleanOperands [p] [r]) :
    Exact (fun a b => a ∧ ¬ b) [p] [r] (subtractPolygonFromPolygon p r) :=
  (result_subtractPolygonFromPolygon h1 h2).exact (validPolygons_single h1) (validPolygons_single h2) ho

/-- C57 `polygon - multipolygon`. -/
theorem C57_subtract_polygon_multipolygon (h1 : ValidPolygon p) (h2 : ValidPolygons n.polygons)
    (ho : CleanOperands [p] n.polygons) :
    Exact (fun a b => a ∧ ¬ b) [p] n.polygons (subtractMultipolygonFromPolygon p n) :=
  (result_subtractMultipolygonFromPolygon h1 h2).exact (validPolygons_single h1) h2 ho

/-- C57 `multipolygon - polygon`. -/
theorem C57_subtract_multipolygon_polygon (h1 : ValidPolygons m.polygons) (h2 : ValidPolygon r)
    (ho : CleanOperands m.polygons [r]) :
    Exact (fun a b => a ∧ ¬ b) m.polygons [r] (subtractPolygonFromMultipolygon m r) :=
  (result_subtractPolygonFromMultipolygon h1 h2).exact h1 (validPolygons_single h2) ho

/-- C57 `multipolygon - multipolygon`. -/
theorem C57_subtract_multipolygon_multipolygon (h1 : ValidPolygons m.polygons) (h2 : ValidPolygons n.polygons)
    (ho : CleanOperands m.polygons n.polygons) :
    Exact (fun a b => a ∧ ¬ b) m.polygons n.polygons (subtractMultipolygonFromMultipolygon m n) :=
  (result_subtractMultipolygonFromMultipolygon h1 h2).exact h1 h2 ho

/-- C57 `polygon & polygon`. -/
theorem C57_intersect_polygon_polygon (h1 : ValidPolygon p) (h2 : ValidPolygon r)
    (ho : CleanOperands [p] [r]) :
    Exact (fun a b => a ∧ b) [p] [r] (intersectPolygonWithPolygon p r) :=
  (result_intersectPolygonWithPolygon h1 h2).exact (validPolygons_single h1) (validPolygons_single h2) ho

/-- C57 `polygon & multipolygon`. -/
theorem C57_intersect_polygon_multipolygon (h1 : ValidPolygon p) (h2 : ValidPolygons n.polygons)
    (ho : CleanOperands [p] n.polygons) :
    Exact (fun a b => a ∧ b) [p] n.polygons (intersectPolygonWithMultipolygon p n) :=
  (result_intersectPolygonWithMultipolygon h1 h2).exact (validPolygons_single h1) h2 ho

/-- C57 `multipolygon & polygon`. -/
theorem C57_intersect_multipolygon_polygon (h1 : ValidPolygons m.polygons) (h2 : ValidPolygon r)
    (ho : CleanOperands m.polygons [r]) :
    Exact (fun a b => a ∧ b) m.polygons [r] (intersectMultipolygonWithPolygon m r) :=
  (result_intersectMultipolygonWithPolygon h1 h2).exact h1 (validPolygons_single h2) ho

/-- C57 `multipolygon & multipolygon`. -/
theorem C57_intersect_multipolygon_multipolygon (h1 : ValidPolygons m.polygons) (h2 : ValidPolygons n.polygons)
    (ho : CleanOperands m.polygons n.polygons) :
    Exact (fun a b => a ∧ b) m.polygons n.polygons (intersectMultipolygonWithMultipolygon m n) :=
  (result_intersectMultipolygonWithMultipolygon h1 h2).exact h1 h2 ho

/-- C57 `polygon | polygon`. -/
theorem C57_unite_polygon_polygon (h1 : ValidPolygon p) (h2 : ValidPolygon r)
    (ho : CleanOperands [p] [r]) :
    Exact (fun a b => a ∨ b) [p] [r] (unitePolygonWithPolygon p r) :=
  (result_unitePolygonWithPolygon h1 h2).exact (validPolygons_single h1) (validPolygons_single h2) ho

/-- C57 `polygon | multipolygon`. -/
theorem C57_unite_polygon_multipolygon (h1 : ValidPolygon p) (h2 : ValidPolygons n.polygons)
    (c2 : 2 ≤ n.polygons.length)
    (ho : CleanOperands [p] n.polygons) :
    Exact (fun a b => a ∨ b) [p] n.polygons (unitePolygonWithMultipolygon p n) :=
  (result_unitePolygonWithMultipolygon h1 h2 c2).exact (validPolygons_single h1) h2 ho

/-- C57 `multipolygon | polygon`. -/
theorem C57_unite_multipolygon_polygon (h1 : ValidPolygons m.polygons) (h2 : ValidPolygon r)
    (c1 : 2 ≤ m.polygons.length)
    (ho : CleanOperands m.polygons [r]) :
    Exact (fun a b => a ∨ b) m.polygons [r] (uniteMultipolygonWithPolygon m r) :=
  (result_uniteMultipolygonWithPolygon h1 h2 c1).exact h1 (validPolygons_single h2) ho

/-- C57 `multipolygon | multipolygon`. -/
theorem C57_unite_multipolygon_multipolygon (h1 : ValidPolygons m.polygons) (h2 : ValidPolygons n.polygons)
    (c1 : 2 ≤ m.polygons.length)
    (c2 : 2 ≤ n.polygons.length)
    (ho : CleanOperands m.polygons n.polygons) :
    Exact (fun a b => a ∨ b) m.polygons n.polygons (uniteMultipolygonWithMultipolygon m n) :=
  (result_uniteMultipolygonWithMultipolygon h1 h2 c1 c2).exact h1 h2 ho

/-- C57 `polygon ^ polygon`. -/
theorem C57_symmetric_subtract_polygon_polygon (h1 : ValidPolygon p) (h2 : ValidPolygon r)
    (ho : CleanOperands [p] [r]) :
    Exact (fun a b => Xor' a b) [p] [r] (symmetricSubtractPolygonFromPolygon p r) :=
  (result_symmetricSubtractPolygonFromPolygon h1 h2).exact (validPolygons_single h1) (validPolygons_single h2) ho

/-- C57 `polygon ^ multipolygon`. -/
theorem C57_symmetric_subtract_polygon_multipolygon (h1 : ValidPolygon p) (h2 : ValidPolygons n.polygons)
    (c2 : 2 ≤ n.polygons.length)
    (ho : CleanOperands [p] n.polygons) :
    Exact (fun a b => Xor' a b) [p] n.polygons (symmetricSubtractMultipolygonFromPolygon p n) :=
  (result_symmetricSubtractMultipolygonFromPolygon h1 h2 c2).exact (validPolygons_single h1) h2 ho

/-- C57 `multipolygon ^ polygon`. -/
theorem C57_symmetric_subtract_multipolygon_polygon (h1 : ValidPolygons m.polygons) (h2 : ValidPolygon r)
    (c1 : 2 ≤ m.polygons.length)
    (ho : CleanOperands m.polygons [r]) :
    Exact (fun a b => Xor' a b) m.polygons [r] (symmetricSubtractPolygonFromMultipolygon m r) :=
  (result_symmetricSubtractPolygonFromMultipolygon h1 h2 c1).exact h1 (validPolygons_single h2) ho

/-- C57 `multipolygon ^ multipolygon`. -/
theorem C57_symmetric_subtract_multipolygon_multipolygon (h1 : ValidPolygons m.polygons) (h2 : ValidPolygons n.polygons)
    (c1 : 2 ≤ m.polygons.length)
    (c2 : 2 ≤ n.polygons.length)
    (ho : CleanOperands m.polygons n.polygons) :
    Exact (fun a b => Xor' a b) m.polygons n.polygons (symmetricSubtractMultipolygonFromMultipolygon m n) :=
  (result_symmetricSubtractMultipolygonFromMultipolygon h1 h2 c1 c2).exact h1 h2 ho

end

/-! ### Concrete cases -/

/-- A check of `EndsOff`. -/
def endsOffB (l m : List Segment) : Bool :=
  l.all fun s => m.all fun t => [t.start, t.end].all fun q => decide (q = s.start ∨ q = s.end ∨ s.locate q = .exterior)

theorem endsOff_of {l m : List Segment} (hl : ∀ s ∈ l, s.start ≠ s.end) (h : endsOffB l m = true) : EndsOff l m := by
  have key : ∀ s ∈ l, ∀ q, (q = s.start ∨ q = s.end ∨ s.locate q = .exterior) → q ∉ openSeg s.start s.end := by
    intro s hs q k hq
    obtain ⟨k1, k2, k3⟩ := (mem_openSeg_iff (hl s hs)).mp hq
    rcases k with k | k | k
    · exact k2 k
    · exact k3 k
    · exact (C01_segment_locate s q).2.1.mp k k1
  intro s hs t ht
  have := List.all_eq_true.mp (List.all_eq_true.mp h s hs) t ht
  simp only [List.all_cons, List.all_nil, Bool.and_true, Bool.and_eq_true, decide_eq_true_iff] at this
  exact ⟨key s hs _ this.1, key s hs _ this.2⟩

/-- A square which crosses the ring, its hole and the triangle. -/
def Spec.exBoard : Polygon := ⟨⟨[⟨3, 1⟩, ⟨19 / 2, 1⟩, ⟨19 / 2, 5⟩, ⟨3, 5⟩]⟩, []⟩

theorem exBoard_valid : ValidPolygon exBoard := valid_of_validB (by decide +kernel)

theorem exBoard_off : VerticesOffEdges [exBoard] exBoth.polygons := by
  have f1 : FullyNoded (outlineEdges [exBoard]) := fullyNoded_of_nodedB ⟨by decide +kernel, by decide +kernel⟩
  have f2 : FullyNoded (outlineEdges exBoth.polygons) := fullyNoded_of_nodedB ⟨by decide +kernel, by decide +kernel⟩
  exact ⟨f1, f2, endsOff_of f1.1 (by decide +kernel), endsOff_of f2.1 (by decide +kernel)⟩

theorem exBoard_clean : CleanOperands [exBoard] exBoth.polygons := clean_of_verticesOff exBoard_off

/-- C57: all the hypotheses hold in a concrete case, where the result has several contours. -/
example : ValidPolygon exBoard ∧ ValidPolygons exBoth.polygons ∧ 2 ≤ exBoth.polygons.length ∧
    CleanOperands [exBoard] exBoth.polygons := ⟨exBoard_valid, exBoth_valid, by decide, exBoard_clean⟩

example : Exact (fun a b => a ∧ ¬ b) exBoth.polygons [exBoard] (subtractPolygonFromMultipolygon exBoth exBoard) :=
  C57_subtract_multipolygon_polygon exBoth_valid exBoard_valid (clean_symm exBoard_clean)

/-- A check of `CleanOperands`: a point common to two contours is a vertex. -/
def loneB (l m : List Polygon) : Bool :=
  (outlineEdges l).all fun s => (outlineEdges m).all fun t => [t.start, t.end].all fun q =>
    decide (q = s.start ∨ q = s.end ∨ s.locate q = .exterior ∨ contoursThrough m q ≤ 1)

theorem lone_of {l m : List Polygon} (hl : FullyNoded (outlineEdges l)) (hm : FullyNoded (outlineEdges m))
    (h : loneB l m = true) : ∀ s ∈ outlineEdges l, ∀ q ∈ openSeg s.start s.end, contoursThrough m q ≤ 1 := by
  intro s hs q hq
  by_contra hn
  refine hn (countP_le_one (List.Pairwise.and_mem.mp (List.pairwise_flatMap.mp hm.2).2) ?_)
  rintro c c' ⟨hc, hc', hR⟩ h1 h2
  obtain ⟨t, ht, qt⟩ := (C22_region_boundary c q).mp (of_decide_eq_true h1)
  obtain ⟨t', ht', qt'⟩ := (C22_region_boundary c' q).mp (of_decide_eq_true h2)
  have := List.all_eq_true.mp (List.all_eq_true.mp h s hs) t (List.mem_flatMap.mpr ⟨c, hc, ht⟩)
  have key : ∀ q', q' = q → (q' = s.start ∨ q' = s.end ∨ s.locate q' = .exterior ∨ contoursThrough m q' ≤ 1) → False := by
    rintro q' rfl k
    obtain ⟨k1, k2, k3⟩ := (mem_openSeg_iff (hl.1 s hs)).mp hq
    rcases k with k | k | k | k
    · exact k2 k
    · exact k3 k
    · exact (C01_segment_locate s q').2.1.mp k k1
    · exact hn k
  simp only [List.all_cons, List.all_nil, Bool.and_true, Bool.and_eq_true, decide_eq_true_iff] at this
  rcases ((hR t ht t' ht').2 q qt qt').1 with z | z
  · exact key _ z.symm this.1
  · exact key _ z.symm this.2

/-- A polygon with vertices inside of edges of the ring and of its hole, and with an edge along an edge of the ring. -/
def Spec.exTee : Polygon := ⟨⟨[⟨3, 4⟩, ⟨6, 3⟩, ⟨6, 9⟩, ⟨1, 6⟩]⟩, []⟩

theorem exTee_valid : ValidPolygon exTee := valid_of_validB (by decide +kernel)

theorem exTee_clean : CleanOperands [exTee] exBoth.polygons := by
  have f1 : FullyNoded (outlineEdges [exTee]) := fullyNoded_of_nodedB ⟨by decide +kernel, by decide +kernel⟩
  have f2 := exBoard_clean.2.1
  exact ⟨f1, f2, lone_of f1 f2 (by decide +kernel), lone_of f2 f1 (by decide +kernel)⟩

/-- C57: the hypotheses allow vertices inside of edges. -/
example : ¬ VerticesOffEdges [exTee] exBoth.polygons ∧
    Exact (fun a b => a ∨ b) [exTee] exBoth.polygons (unitePolygonWithMultipolygon exTee exBoth) := by
  refine ⟨fun h => ?_, C57_unite_polygon_multipolygon exTee_valid exBoth_valid (by decide) exTee_clean⟩
  exact (h.2.2.2 ⟨⟨6, 0⟩, ⟨6, 6⟩⟩ (by decide +kernel) ⟨⟨3, 4⟩, ⟨6, 3⟩⟩ (by decide +kernel)).2
    ⟨1 / 2, by norm_num, by norm_num, by decide +kernel⟩

end Rene
