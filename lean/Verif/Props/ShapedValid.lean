import Verif.Props.ShapedExact
import Verif.Props.ShapedFindings
import Verif.Lemmas.ShapedValid

/-! # C58: the results of boolean operations are valid operands again

`CleanOperands` and `ValidResult` are those of `Verif/Spec/Shaped.lean`, `ValidPolygons` is that of
`Verif/Spec/Shapes.lean`.  Without `CleanOperands` the conclusion fails: see `C58_invalid_result`. -/

namespace Rene
open Spec Rene.Sweep

section
variable {p r : Polygon} {m n : Multipolygon}

/-- C58 `polygon - polygon`. -/
theorem C58_subtract_polygon_polygon (h1 : ValidPolygon p) (h2 : ValidPolygon r)
    (ho : CleanOperands [p] [r]) :
    ValidResult (subtractPolygonFromPolygon p r) :=
  (result_subtractPolygonFromPolygon h1 h2).valid (validPolygons_single h1) (validPolygons_single h2) ho

/-- C58 `polygon - multipolygon`. -/
theorem C58_subtract_polygon_multipolygon (h1 : ValidPolygon p) (h2 : ValidPolygons n.polygons)
    (ho : CleanOperands [p] n.polygons) :
    ValidResult (subtractMultipolygonFromPolygon p n) :=
  (result_subtractMultipolygonFromPolygon h1 h2).valid (validPolygons_single h1) h2 ho

/-- C58 `multipolygon - polygon`. -/
theorem C58_subtract_multipolygon_polygon (h1 : ValidPolygons m.polygons) (h2 : ValidPolygon r)
    (ho : CleanOperands m.polygons [r]) :
    ValidResult (subtractPolygonFromMultipolygon m r) :=
  (result_subtractPolygonFromMultipolygon h1 h2).valid h1 (validPolygons_single h2) ho

/-- C58 `multipolygon - multipolygon`. -/
theorem C58_subtract_multipolygon_multipolygon (h1 : ValidPolygons m.polygons) (h2 : ValidPolygons n.polygons)
    (ho : CleanOperands m.polygons n.polygons) :
    ValidResult (subtractMultipolygonFromMultipolygon m n) :=
  (result_subtractMultipolygonFromMultipolygon h1 h2).valid h1 h2 ho

/-- C58 `polygon & polygon`. -/
theorem C58_intersect_polygon_polygon (h1 : ValidPolygon p) (h2 : ValidPolygon r)
    (ho : CleanOperands [p] [r]) :
    ValidResult (intersectPolygonWithPolygon p r) :=
  (result_intersectPolygonWithPolygon h1 h2).valid (validPolygons_single h1) (validPolygons_single h2) ho

/-- C58 `polygon & multipolygon`. -/
theorem C58_intersect_polygon_multipolygon (h1 : ValidPolygon p) (h2 : ValidPolygons n.polygons)
    (ho : CleanOperands [p] n.polygons) :
    ValidResult (intersectPolygonWithMultipolygon p n) :=
  (result_intersectPolygonWithMultipolygon h1 h2).valid (validPolygons_single h1) h2 ho

/-- C58 `multipolygon & polygon`. -/
theorem C58_intersect_multipolygon_polygon (h1 : ValidPolygons m.polygons) (h2 : ValidPolygon r)
    (ho : CleanOperands m.polygons [r]) :
    ValidResult (intersectMultipolygonWithPolygon m r) :=
  (result_intersectMultipolygonWithPolygon h1 h2).valid h1 (validPolygons_single h2) ho

/-- C58 `multipolygon & multipolygon`. -/
theorem C58_intersect_multipolygon_multipolygon (h1 : ValidPolygons m.polygons) (h2 : ValidPolygons n.polygons)
    (ho : CleanOperands m.polygons n.polygons) :
    ValidResult (intersectMultipolygonWithMultipolygon m n) :=
  (result_intersectMultipolygonWithMultipolygon h1 h2).valid h1 h2 ho

/-- C58 `polygon | polygon`. -/
theorem C58_unite_polygon_polygon (h1 : ValidPolygon p) (h2 : ValidPolygon r)
    (ho : CleanOperands [p] [r]) :
    ValidResult (unitePolygonWithPolygon p r) :=
  (result_unitePolygonWithPolygon h1 h2).valid (validPolygons_single h1) (validPolygons_single h2) ho

/-- C58 `polygon | multipolygon`. -/
theorem C58_unite_polygon_multipolygon (h1 : ValidPolygon p) (h2 : ValidPolygons n.polygons)
    (c2 : 2 ≤ n.polygons.length)
    (ho : CleanOperands [p] n.polygons) :
    ValidResult (unitePolygonWithMultipolygon p n) :=
  (result_unitePolygonWithMultipolygon h1 h2 c2).valid (validPolygons_single h1) h2 ho

/-- C58 `multipolygon | polygon`. -/
theorem C58_unite_multipolygon_polygon (h1 : ValidPolygons m.polygons) (h2 : ValidPolygon r)
    (c1 : 2 ≤ m.polygons.length)
    (ho : CleanOperands m.polygons [r]) :
    ValidResult (uniteMultipolygonWithPolygon m r) :=
  (result_uniteMultipolygonWithPolygon h1 h2 c1).valid h1 (validPolygons_single h2) ho

/-- C58 `multipolygon | multipolygon`. -/
theorem C58_unite_multipolygon_multipolygon (h1 : ValidPolygons m.polygons) (h2 : ValidPolygons n.polygons)
    (c1 : 2 ≤ m.polygons.length)
    (c2 : 2 ≤ n.polygons.length)
    (ho : CleanOperands m.polygons n.polygons) :
    ValidResult (uniteMultipolygonWithMultipolygon m n) :=
  (result_uniteMultipolygonWithMultipolygon h1 h2 c1 c2).valid h1 h2 ho

/-- C58 `polygon ^ polygon`. -/
theorem C58_symmetric_subtract_polygon_polygon (h1 : ValidPolygon p) (h2 : ValidPolygon r)
    (ho : CleanOperands [p] [r]) :
    ValidResult (symmetricSubtractPolygonFromPolygon p r) :=
  (result_symmetricSubtractPolygonFromPolygon h1 h2).valid (validPolygons_single h1) (validPolygons_single h2) ho

/-- C58 `polygon ^ multipolygon`. -/
theorem C58_symmetric_subtract_polygon_multipolygon (h1 : ValidPolygon p) (h2 : ValidPolygons n.polygons)
    (c2 : 2 ≤ n.polygons.length)
    (ho : CleanOperands [p] n.polygons) :
    ValidResult (symmetricSubtractMultipolygonFromPolygon p n) :=
  (result_symmetricSubtractMultipolygonFromPolygon h1 h2 c2).valid (validPolygons_single h1) h2 ho

/-- C58 `multipolygon ^ polygon`. -/
theorem C58_symmetric_subtract_multipolygon_polygon (h1 : ValidPolygons m.polygons) (h2 : ValidPolygon r)
    (c1 : 2 ≤ m.polygons.length)
    (ho : CleanOperands m.polygons [r]) :
    ValidResult (symmetricSubtractPolygonFromMultipolygon m r) :=
  (result_symmetricSubtractPolygonFromMultipolygon h1 h2 c1).valid h1 (validPolygons_single h2) ho

/-- C58 `multipolygon ^ multipolygon`. -/
theorem C58_symmetric_subtract_multipolygon_multipolygon (h1 : ValidPolygons m.polygons) (h2 : ValidPolygons n.polygons)
    (c1 : 2 ≤ m.polygons.length)
    (c2 : 2 ≤ n.polygons.length)
    (ho : CleanOperands m.polygons n.polygons) :
    ValidResult (symmetricSubtractMultipolygonFromMultipolygon m n) :=
  (result_symmetricSubtractMultipolygonFromMultipolygon h1 h2 c1 c2).valid h1 h2 ho

end

/-! ### Concrete cases -/

/-- C58: all the hypotheses hold in a concrete case, where the result has several contours. -/
example : ValidPolygon exBoard ∧ ValidPolygons exBoth.polygons ∧ 2 ≤ exBoth.polygons.length ∧
    CleanOperands [exBoard] exBoth.polygons := ⟨exBoard_valid, exBoth_valid, by decide, exBoard_clean⟩

example : ValidResult (subtractPolygonFromMultipolygon exBoth exBoard) :=
  C58_subtract_multipolygon_polygon exBoth_valid exBoard_valid (clean_symm exBoard_clean)

/-- C58: the hypotheses allow vertices inside of edges. -/
example : ValidResult (subtractPolygonFromMultipolygon exBoth exTee) :=
  C58_subtract_multipolygon_polygon exBoth_valid exTee_valid (clean_symm exTee_clean)

/-! ### Finding -/

/-- C58: without the condition on the operands the result of valid operands may be invalid: the hole of the second
polygon of this one is not in its border. -/
theorem C58_invalid_result : ValidPolygon wedge ∧ ValidPolygons [hook, thorn] ∧
    ¬ ValidResult (subtractMultipolygonFromPolygon wedge ⟨[hook, thorn]⟩) := by
  obtain ⟨h1, h2, h3, _, _⟩ := C52_hole_in_wrong_polygon
  refine ⟨h1, h2, ?_⟩
  rintro ⟨g, ps, e1, e2, V⟩
  rw [h3] at e1
  cases e1
  cases e2
  have := ((V.1 ⟨⟨[⟨3, 7⟩, ⟨5, 5⟩, ⟨7, 7⟩]⟩, [⟨[⟨5, 5⟩, ⟨9, 4⟩, ⟨9, 3⟩]⟩]⟩ (by simp)).2.2.1 ⟨[⟨5, 5⟩, ⟨9, 4⟩, ⟨9, 3⟩]⟩
    (by simp) ⟨8, 19 / 5⟩).1 (by decide +kernel)
  revert this
  decide +kernel

end Rene
