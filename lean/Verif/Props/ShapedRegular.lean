import Verif.Props.ShapedValid

/-! # C59: every point of the plane is located by the results of boolean operations as by the regularised set operation

`CleanOperands`, `Around` and `Regular` are those of `Verif/Spec/Shaped.lean`. -/

namespace Rene
open Spec Rene.Sweep

section
variable {p r : Polygon} {m n : Multipolygon}

/-- C59 `polygon - polygon`. -/
theorem C59_subtract_polygon_polygon (h1 : ValidPolygon p) (h2 : ValidPolygon r)
    (ho : CleanOperands [p] [r]) :
    Regular (fun a b => a ∧ ¬ b) [p] [r] (subtractPolygonFromPolygon p r) :=
  (result_subtractPolygonFromPolygon h1 h2).regular (validPolygons_single h1) (validPolygons_single h2) ho

/-- C59 `polygon - multipolygon`. -/
theorem C59_subtract_polygon_multipolygon (h1 : ValidPolygon p) (h2 : ValidPolygons n.polygons)
    (ho : CleanOperands [p] n.polygons) :
    Regular (fun a b => a ∧ ¬ b) [p] n.polygons (subtractMultipolygonFromPolygon p n) :=
  (result_subtractMultipolygonFromPolygon h1 h2).regular (validPolygons_single h1) h2 ho

/-- C59 `multipolygon - polygon`. -/
theorem C59_subtract_multipolygon_polygon (h1 : ValidPolygons m.polygons) (h2 : ValidPolygon r)
    (ho : CleanOperands m.polygons [r]) :
    Regular (fun a b => a ∧ ¬ b) m.polygons [r] (subtractPolygonFromMultipolygon m r) :=
  (result_subtractPolygonFromMultipolygon h1 h2).regular h1 (validPolygons_single h2) ho

/-- C59 `multipolygon - multipolygon`. -/
theorem C59_subtract_multipolygon_multipolygon (h1 : ValidPolygons m.polygons) (h2 : ValidPolygons n.polygons)
    (ho : CleanOperands m.polygons n.polygons) :
    Regular (fun a b => a ∧ ¬ b) m.polygons n.polygons (subtractMultipolygonFromMultipolygon m n) :=
  (result_subtractMultipolygonFromMultipolygon h1 h2).regular h1 h2 ho

/-- C59 `polygon & polygon`. -/
theorem C59_intersect_polygon_polygon (h1 : ValidPolygon p) (h2 : ValidPolygon r)
    (ho : CleanOperands [p] [r]) :
    Regular (fun a b => a ∧ b) [p] [r] (intersectPolygonWithPolygon p r) :=
  (result_intersectPolygonWithPolygon h1 h2).regular (validPolygons_single h1) (validPolygons_single h2) ho

/-- C59 `polygon & multipolygon`. -/
theorem C59_intersect_polygon_multipolygon (h1 : ValidPolygon p) (h2 : ValidPolygons n.polygons)
    (ho : CleanOperands [p] n.polygons) :
    Regular (fun a b => a ∧ b) [p] n.polygons (intersectPolygonWithMultipolygon p n) :=
  (result_intersectPolygonWithMultipolygon h1 h2).regular (validPolygons_single h1) h2 ho

/-- C59 `multipolygon & polygon`. -/
theorem C59_intersect_multipolygon_polygon (h1 : ValidPolygons m.polygons) (h2 : ValidPolygon r)
    (ho : CleanOperands m.polygons [r]) :
    Regular (fun a b => a ∧ b) m.polygons [r] (intersectMultipolygonWithPolygon m r) :=
  (result_intersectMultipolygonWithPolygon h1 h2).regular h1 (validPolygons_single h2) ho

/-- C59 `multipolygon & multipolygon`. -/
theorem C59_intersect_multipolygon_multipolygon (h1 : ValidPolygons m.polygons) (h2 : ValidPolygons n.polygons)
    (ho : CleanOperands m.polygons n.polygons) :
    Regular (fun a b => a ∧ b) m.polygons n.polygons (intersectMultipolygonWithMultipolygon m n) :=
  (result_intersectMultipolygonWithMultipolygon h1 h2).regular h1 h2 ho

/-- C59 `polygon | polygon`. -/
theorem C59_unite_polygon_polygon (h1 : ValidPolygon p) (h2 : ValidPolygon r)
    (ho : CleanOperands [p] [r]) :
    Regular (fun a b => a ∨ b) [p] [r] (unitePolygonWithPolygon p r) :=
  (result_unitePolygonWithPolygon h1 h2).regular (validPolygons_single h1) (validPolygons_single h2) ho

/-- C59 `polygon | multipolygon`. -/
theorem C59_unite_polygon_multipolygon (h1 : ValidPolygon p) (h2 : ValidPolygons n.polygons)
    (c2 : 2 ≤ n.polygons.length)
    (ho : CleanOperands [p] n.polygons) :
    Regular (fun a b => a ∨ b) [p] n.polygons (unitePolygonWithMultipolygon p n) :=
  (result_unitePolygonWithMultipolygon h1 h2 c2).regular (validPolygons_single h1) h2 ho

/-- C59 `multipolygon | polygon`. -/
theorem C59_unite_multipolygon_polygon (h1 : ValidPolygons m.polygons) (h2 : ValidPolygon r)
    (c1 : 2 ≤ m.polygons.length)
    (ho : CleanOperands m.polygons [r]) :
    Regular (fun a b => a ∨ b) m.polygons [r] (uniteMultipolygonWithPolygon m r) :=
  (result_uniteMultipolygonWithPolygon h1 h2 c1).regular h1 (validPolygons_single h2) ho

/-- C59 `multipolygon | multipolygon`. -/
theorem C59_unite_multipolygon_multipolygon (h1 : ValidPolygons m.polygons) (h2 : ValidPolygons n.polygons)
    (c1 : 2 ≤ m.polygons.length)
    (c2 : 2 ≤ n.polygons.length)
    (ho : CleanOperands m.polygons n.polygons) :
    Regular (fun a b => a ∨ b) m.polygons n.polygons (uniteMultipolygonWithMultipolygon m n) :=
  (result_uniteMultipolygonWithMultipolygon h1 h2 c1 c2).regular h1 h2 ho

/-- C59 `polygon ^ polygon`. -/
theorem C59_symmetric_subtract_polygon_polygon (h1 : ValidPolygon p) (h2 : ValidPolygon r)
    (ho : CleanOperands [p] [r]) :
    Regular (fun a b => Xor' a b) [p] [r] (symmetricSubtractPolygonFromPolygon p r) :=
  (result_symmetricSubtractPolygonFromPolygon h1 h2).regular (validPolygons_single h1) (validPolygons_single h2) ho

/-- C59 `polygon ^ multipolygon`. -/
theorem C59_symmetric_subtract_polygon_multipolygon (h1 : ValidPolygon p) (h2 : ValidPolygons n.polygons)
    (c2 : 2 ≤ n.polygons.length)
    (ho : CleanOperands [p] n.polygons) :
    Regular (fun a b => Xor' a b) [p] n.polygons (symmetricSubtractMultipolygonFromPolygon p n) :=
  (result_symmetricSubtractMultipolygonFromPolygon h1 h2 c2).regular (validPolygons_single h1) h2 ho

/-- C59 `multipolygon ^ polygon`. -/
theorem C59_symmetric_subtract_multipolygon_polygon (h1 : ValidPolygons m.polygons) (h2 : ValidPolygon r)
    (c1 : 2 ≤ m.polygons.length)
    (ho : CleanOperands m.polygons [r]) :
    Regular (fun a b => Xor' a b) m.polygons [r] (symmetricSubtractPolygonFromMultipolygon m r) :=
  (result_symmetricSubtractPolygonFromMultipolygon h1 h2 c1).regular h1 (validPolygons_single h2) ho

/-- C59 `multipolygon ^ multipolygon`. -/
theorem C59_symmetric_subtract_multipolygon_multipolygon (h1 : ValidPolygons m.polygons) (h2 : ValidPolygons n.polygons)
    (c1 : 2 ≤ m.polygons.length)
    (c2 : 2 ≤ n.polygons.length)
    (ho : CleanOperands m.polygons n.polygons) :
    Regular (fun a b => Xor' a b) m.polygons n.polygons (symmetricSubtractMultipolygonFromMultipolygon m n) :=
  (result_symmetricSubtractMultipolygonFromMultipolygon h1 h2 c1 c2).regular h1 h2 ho

end

/-! ### Concrete cases -/

/-- C59: all the hypotheses hold in a concrete case, where the result has several contours. -/
example : ValidPolygon exBoard ∧ ValidPolygons exBoth.polygons ∧ 2 ≤ exBoth.polygons.length ∧
    CleanOperands [exBoard] exBoth.polygons := ⟨exBoard_valid, exBoth_valid, by decide, exBoard_clean⟩

example : Regular (fun a b => a ∧ ¬ b) exBoth.polygons [exBoard] (subtractPolygonFromMultipolygon exBoth exBoard) :=
  C59_subtract_multipolygon_polygon exBoth_valid exBoard_valid (clean_symm exBoard_clean)

/-- C59: the hypotheses allow vertices inside of edges. -/
example : Regular (fun a b => a ∧ b) exBoth.polygons [exTee] (intersectMultipolygonWithPolygon exBoth exTee) :=
  C59_intersect_multipolygon_polygon exBoth_valid exTee_valid (clean_symm exTee_clean)

end Rene
