import Verif.Lemmas.ShapedResults
import Verif.Props.MixedExamples

/-! # C50, C51: boolean operations between polygons and multipolygons

`ValidPolygon(s)`, `regionPts` are those of `Verif/Spec/Shapes.lean`; `SoundContours` and `EvenOdd` of
`Verif/Spec/Shaped.lean`.  A constructed multipolygon has at least two polygons, which matters for unions and
symmetric differences. -/

namespace Rene
open Spec Sweep

section
variable {p r : Polygon} {m n : Multipolygon}

/-- C50 `polygon - polygon`. -/
theorem C50_subtract_polygon_polygon (h1 : ValidPolygon p) (h2 : ValidPolygon r) :
    SoundContours [p] [r] (subtractPolygonFromPolygon p r) :=
  (result_subtractPolygonFromPolygon h1 h2).sound

/-- C50 `polygon - multipolygon`. -/
theorem C50_subtract_polygon_multipolygon (h1 : ValidPolygon p) (h2 : ValidPolygons n.polygons) :
    SoundContours [p] n.polygons (subtractMultipolygonFromPolygon p n) :=
  (result_subtractMultipolygonFromPolygon h1 h2).sound

/-- C50 `multipolygon - polygon`. -/
theorem C50_subtract_multipolygon_polygon (h1 : ValidPolygons m.polygons) (h2 : ValidPolygon r) :
    SoundContours m.polygons [r] (subtractPolygonFromMultipolygon m r) :=
  (result_subtractPolygonFromMultipolygon h1 h2).sound

/-- C50 `multipolygon - multipolygon`. -/
theorem C50_subtract_multipolygon_multipolygon (h1 : ValidPolygons m.polygons) (h2 : ValidPolygons n.polygons) :
    SoundContours m.polygons n.polygons (subtractMultipolygonFromMultipolygon m n) :=
  (result_subtractMultipolygonFromMultipolygon h1 h2).sound

/-- C50 `polygon & polygon`. -/
theorem C50_intersect_polygon_polygon (h1 : ValidPolygon p) (h2 : ValidPolygon r) :
    SoundContours [p] [r] (intersectPolygonWithPolygon p r) :=
  (result_intersectPolygonWithPolygon h1 h2).sound

/-- C50 `polygon & multipolygon`. -/
theorem C50_intersect_polygon_multipolygon (h1 : ValidPolygon p) (h2 : ValidPolygons n.polygons) :
    SoundContours [p] n.polygons (intersectPolygonWithMultipolygon p n) :=
  (result_intersectPolygonWithMultipolygon h1 h2).sound

/-- C50 `multipolygon & polygon`. -/
theorem C50_intersect_multipolygon_polygon (h1 : ValidPolygons m.polygons) (h2 : ValidPolygon r) :
    SoundContours m.polygons [r] (intersectMultipolygonWithPolygon m r) :=
  (result_intersectMultipolygonWithPolygon h1 h2).sound

/-- C50 `multipolygon & multipolygon`. -/
theorem C50_intersect_multipolygon_multipolygon (h1 : ValidPolygons m.polygons) (h2 : ValidPolygons n.polygons) :
    SoundContours m.polygons n.polygons (intersectMultipolygonWithMultipolygon m n) :=
  (result_intersectMultipolygonWithMultipolygon h1 h2).sound

/-- C50 `polygon | polygon`. -/
theorem C50_unite_polygon_polygon (h1 : ValidPolygon p) (h2 : ValidPolygon r) :
    SoundContours [p] [r] (unitePolygonWithPolygon p r) :=
  (result_unitePolygonWithPolygon h1 h2).sound

/-- C50 `polygon | multipolygon`. -/
theorem C50_unite_polygon_multipolygon (h1 : ValidPolygon p) (h2 : ValidPolygons n.polygons)
    (c2 : 2 ≤ n.polygons.length) :
    SoundContours [p] n.polygons (unitePolygonWithMultipolygon p n) :=
  (result_unitePolygonWithMultipolygon h1 h2 c2).sound

/-- C50 `multipolygon | polygon`. -/
theorem C50_unite_multipolygon_polygon (h1 : ValidPolygons m.polygons) (h2 : ValidPolygon r)
    (c1 : 2 ≤ m.polygons.length) :
    SoundContours m.polygons [r] (uniteMultipolygonWithPolygon m r) :=
  (result_uniteMultipolygonWithPolygon h1 h2 c1).sound

/-- C50 `multipolygon | multipolygon`. -/
theorem C50_unite_multipolygon_multipolygon (h1 : ValidPolygons m.polygons) (h2 : ValidPolygons n.polygons)
    (c1 : 2 ≤ m.polygons.length)
    (c2 : 2 ≤ n.polygons.length) :
    SoundContours m.polygons n.polygons (uniteMultipolygonWithMultipolygon m n) :=
  (result_uniteMultipolygonWithMultipolygon h1 h2 c1 c2).sound

/-- C50 `polygon ^ polygon`. -/
theorem C50_symmetric_subtract_polygon_polygon (h1 : ValidPolygon p) (h2 : ValidPolygon r) :
    SoundContours [p] [r] (symmetricSubtractPolygonFromPolygon p r) :=
  (result_symmetricSubtractPolygonFromPolygon h1 h2).sound

/-- C50 `polygon ^ multipolygon`. -/
theorem C50_symmetric_subtract_polygon_multipolygon (h1 : ValidPolygon p) (h2 : ValidPolygons n.polygons)
    (c2 : 2 ≤ n.polygons.length) :
    SoundContours [p] n.polygons (symmetricSubtractMultipolygonFromPolygon p n) :=
  (result_symmetricSubtractMultipolygonFromPolygon h1 h2 c2).sound

/-- C50 `multipolygon ^ polygon`. -/
theorem C50_symmetric_subtract_multipolygon_polygon (h1 : ValidPolygons m.polygons) (h2 : ValidPolygon r)
    (c1 : 2 ≤ m.polygons.length) :
    SoundContours m.polygons [r] (symmetricSubtractPolygonFromMultipolygon m r) :=
  (result_symmetricSubtractPolygonFromMultipolygon h1 h2 c1).sound

/-- C50 `multipolygon ^ multipolygon`. -/
theorem C50_symmetric_subtract_multipolygon_multipolygon (h1 : ValidPolygons m.polygons) (h2 : ValidPolygons n.polygons)
    (c1 : 2 ≤ m.polygons.length)
    (c2 : 2 ≤ n.polygons.length) :
    SoundContours m.polygons n.polygons (symmetricSubtractMultipolygonFromMultipolygon m n) :=
  (result_symmetricSubtractMultipolygonFromMultipolygon h1 h2 c1 c2).sound

/-- C51 `polygon - polygon`. -/
theorem C51_subtract_polygon_polygon (h1 : ValidPolygon p) (h2 : ValidPolygon r) :
    EvenOdd (fun a b => a ∧ ¬ b) [p] [r] (subtractPolygonFromPolygon p r) :=
  (result_subtractPolygonFromPolygon h1 h2).evenOdd (validPolygons_single h1) (validPolygons_single h2)

/-- C51 `polygon - multipolygon`. -/
theorem C51_subtract_polygon_multipolygon (h1 : ValidPolygon p) (h2 : ValidPolygons n.polygons) :
    EvenOdd (fun a b => a ∧ ¬ b) [p] n.polygons (subtractMultipolygonFromPolygon p n) :=
  (result_subtractMultipolygonFromPolygon h1 h2).evenOdd (validPolygons_single h1) h2

/-- C51 `multipolygon - polygon`. -/
theorem C51_subtract_multipolygon_polygon (h1 : ValidPolygons m.polygons) (h2 : ValidPolygon r) :
    EvenOdd (fun a b => a ∧ ¬ b) m.polygons [r] (subtractPolygonFromMultipolygon m r) :=
  (result_subtractPolygonFromMultipolygon h1 h2).evenOdd h1 (validPolygons_single h2)

/-- C51 `multipolygon - multipolygon`. -/
theorem C51_subtract_multipolygon_multipolygon (h1 : ValidPolygons m.polygons) (h2 : ValidPolygons n.polygons) :
    EvenOdd (fun a b => a ∧ ¬ b) m.polygons n.polygons (subtractMultipolygonFromMultipolygon m n) :=
  (result_subtractMultipolygonFromMultipolygon h1 h2).evenOdd h1 h2

/-- C51 `polygon & polygon`. -/
theorem C51_intersect_polygon_polygon (h1 : ValidPolygon p) (h2 : ValidPolygon r) :
    EvenOdd (fun a b => a ∧ b) [p] [r] (intersectPolygonWithPolygon p r) :=
  (result_intersectPolygonWithPolygon h1 h2).evenOdd (validPolygons_single h1) (validPolygons_single h2)

/-- C51 `polygon & multipolygon`. -/
theorem C51_intersect_polygon_multipolygon (h1 : ValidPolygon p) (h2 : ValidPolygons n.polygons) :
    EvenOdd (fun a b => a ∧ b) [p] n.polygons (intersectPolygonWithMultipolygon p n) :=
  (result_intersectPolygonWithMultipolygon h1 h2).evenOdd (validPolygons_single h1) h2

/-- C51 `multipolygon & polygon`. -/
theorem C51_intersect_multipolygon_polygon (h1 : ValidPolygons m.polygons) (h2 : ValidPolygon r) :
    EvenOdd (fun a b => a ∧ b) m.polygons [r] (intersectMultipolygonWithPolygon m r) :=
  (result_intersectMultipolygonWithPolygon h1 h2).evenOdd h1 (validPolygons_single h2)

/-- C51 `multipolygon & multipolygon`. -/
theorem C51_intersect_multipolygon_multipolygon (h1 : ValidPolygons m.polygons) (h2 : ValidPolygons n.polygons) :
    EvenOdd (fun a b => a ∧ b) m.polygons n.polygons (intersectMultipolygonWithMultipolygon m n) :=
  (result_intersectMultipolygonWithMultipolygon h1 h2).evenOdd h1 h2

/-- C51 `polygon | polygon`. -/
theorem C51_unite_polygon_polygon (h1 : ValidPolygon p) (h2 : ValidPolygon r) :
    EvenOdd (fun a b => a ∨ b) [p] [r] (unitePolygonWithPolygon p r) :=
  (result_unitePolygonWithPolygon h1 h2).evenOdd (validPolygons_single h1) (validPolygons_single h2)

/-- C51 `polygon | multipolygon`. -/
theorem C51_unite_polygon_multipolygon (h1 : ValidPolygon p) (h2 : ValidPolygons n.polygons)
    (c2 : 2 ≤ n.polygons.length) :
    EvenOdd (fun a b => a ∨ b) [p] n.polygons (unitePolygonWithMultipolygon p n) :=
  (result_unitePolygonWithMultipolygon h1 h2 c2).evenOdd (validPolygons_single h1) h2

/-- C51 `multipolygon | polygon`. -/
theorem C51_unite_multipolygon_polygon (h1 : ValidPolygons m.polygons) (h2 : ValidPolygon r)
    (c1 : 2 ≤ m.polygons.length) :
    EvenOdd (fun a b => a ∨ b) m.polygons [r] (uniteMultipolygonWithPolygon m r) :=
  (result_uniteMultipolygonWithPolygon h1 h2 c1).evenOdd h1 (validPolygons_single h2)

/-- C51 `multipolygon | multipolygon`. -/
theorem C51_unite_multipolygon_multipolygon (h1 : ValidPolygons m.polygons) (h2 : ValidPolygons n.polygons)
    (c1 : 2 ≤ m.polygons.length)
    (c2 : 2 ≤ n.polygons.length) :
    EvenOdd (fun a b => a ∨ b) m.polygons n.polygons (uniteMultipolygonWithMultipolygon m n) :=
  (result_uniteMultipolygonWithMultipolygon h1 h2 c1 c2).evenOdd h1 h2

/-- C51 `polygon ^ polygon`. -/
theorem C51_symmetric_subtract_polygon_polygon (h1 : ValidPolygon p) (h2 : ValidPolygon r) :
    EvenOdd (fun a b => Xor' a b) [p] [r] (symmetricSubtractPolygonFromPolygon p r) :=
  (result_symmetricSubtractPolygonFromPolygon h1 h2).evenOdd (validPolygons_single h1) (validPolygons_single h2)

/-- C51 `polygon ^ multipolygon`. -/
theorem C51_symmetric_subtract_polygon_multipolygon (h1 : ValidPolygon p) (h2 : ValidPolygons n.polygons)
    (c2 : 2 ≤ n.polygons.length) :
    EvenOdd (fun a b => Xor' a b) [p] n.polygons (symmetricSubtractMultipolygonFromPolygon p n) :=
  (result_symmetricSubtractMultipolygonFromPolygon h1 h2 c2).evenOdd (validPolygons_single h1) h2

/-- C51 `multipolygon ^ polygon`. -/
theorem C51_symmetric_subtract_multipolygon_polygon (h1 : ValidPolygons m.polygons) (h2 : ValidPolygon r)
    (c1 : 2 ≤ m.polygons.length) :
    EvenOdd (fun a b => Xor' a b) m.polygons [r] (symmetricSubtractPolygonFromMultipolygon m r) :=
  (result_symmetricSubtractPolygonFromMultipolygon h1 h2 c1).evenOdd h1 (validPolygons_single h2)

/-- C51 `multipolygon ^ multipolygon`. -/
theorem C51_symmetric_subtract_multipolygon_multipolygon (h1 : ValidPolygons m.polygons) (h2 : ValidPolygons n.polygons)
    (c1 : 2 ≤ m.polygons.length)
    (c2 : 2 ≤ n.polygons.length) :
    EvenOdd (fun a b => Xor' a b) m.polygons n.polygons (symmetricSubtractMultipolygonFromMultipolygon m n) :=
  (result_symmetricSubtractMultipolygonFromMultipolygon h1 h2 c1 c2).evenOdd h1 h2

end

/-! ### Concrete cases -/

/-- A square which meets both polygons of `exBoth` and the hole of `exRing`. -/
def Spec.exSquare : Polygon := ⟨⟨[⟨3, 1⟩, ⟨9, 1⟩, ⟨9, 5⟩, ⟨3, 5⟩]⟩, []⟩

theorem exSquare_valid : ValidPolygon exSquare := valid_of_validB (by decide +kernel)

/-- C50, C51: all the hypotheses hold in a concrete case. -/
example : ValidPolygon exRing ∧ ValidPolygon exSquare ∧ ValidPolygons exBoth.polygons ∧ 2 ≤ exBoth.polygons.length :=
  ⟨exRing_valid, exSquare_valid, exBoth_valid, by decide⟩

example : intersectPolygonWithMultipolygon exSquare exBoth = .ok (.multipolygon ⟨[
      ⟨⟨[⟨3, 1⟩, ⟨6, 1⟩, ⟨6, 5⟩, ⟨3, 5⟩, ⟨3, 4⟩, ⟨4, 4⟩, ⟨4, 2⟩, ⟨3, 2⟩]⟩, []⟩,
      ⟨⟨[⟨33 / 4, 1⟩, ⟨9, 1⟩, ⟨9, 4⟩]⟩, []⟩]⟩) ∧
    unitePolygonWithMultipolygon exSquare exBoth = .ok (.polygon
      ⟨⟨[⟨0, 0⟩, ⟨6, 0⟩, ⟨6, 1⟩, ⟨33 / 4, 1⟩, ⟨8, 0⟩, ⟨10, 0⟩, ⟨9, 4⟩, ⟨9, 5⟩, ⟨6, 5⟩, ⟨6, 6⟩, ⟨0, 6⟩]⟩,
        [⟨[⟨2, 2⟩, ⟨2, 4⟩, ⟨3, 4⟩, ⟨3, 2⟩]⟩]⟩) := by decide +kernel

end Rene
