import Verif.Props.ShapedLaws

/-! # C57-C60 for polygons without holes

Here `CleanOperands` needs not be required: for any two simple contours the boolean operations on the polygons bounded
by them are exact, valid, regular at every point and commutative, whatever contacts the contours have. -/

namespace Rene
open Spec Rene.Sweep

section
variable {c d : Contour}

/-- The polygon without holes. -/
abbrev Spec.disk (c : Contour) : Polygon := ⟨c, []⟩

theorem disk_valid (h : SimpleContour c) : ValidPolygon (disk c) := by
  have e : polygonContours (disk c) = [c] := rfl
  refine ⟨?_, ?_, by simp, by simp⟩
  · rw [e]; simpa using h
  · rw [e, List.flatMap_singleton]
    exact noOverlap_of_noded h.2.2

theorem disk_clean (hc : SimpleContour c) (hd : SimpleContour d) : CleanOperands [disk c] [disk d] :=
  clean_of_holeless (disk_valid hc) (disk_valid hd) rfl rfl

/-- C57 `polygon - polygon` without holes. -/
theorem C57_subtract_holeless (hc : SimpleContour c) (hd : SimpleContour d) :
    Exact (fun a b => a ∧ ¬ b) [disk c] [disk d] (subtractPolygonFromPolygon (disk c) (disk d)) :=
  C57_subtract_polygon_polygon (disk_valid hc) (disk_valid hd) (disk_clean hc hd)

/-- C58 `polygon - polygon` without holes. -/
theorem C58_subtract_holeless (hc : SimpleContour c) (hd : SimpleContour d) :
    ValidResult (subtractPolygonFromPolygon (disk c) (disk d)) :=
  C58_subtract_polygon_polygon (disk_valid hc) (disk_valid hd) (disk_clean hc hd)

/-- C59 `polygon - polygon` without holes. -/
theorem C59_subtract_holeless (hc : SimpleContour c) (hd : SimpleContour d) :
    Regular (fun a b => a ∧ ¬ b) [disk c] [disk d] (subtractPolygonFromPolygon (disk c) (disk d)) :=
  C59_subtract_polygon_polygon (disk_valid hc) (disk_valid hd) (disk_clean hc hd)

/-- C57 `polygon & polygon` without holes. -/
theorem C57_intersect_holeless (hc : SimpleContour c) (hd : SimpleContour d) :
    Exact (fun a b => a ∧ b) [disk c] [disk d] (intersectPolygonWithPolygon (disk c) (disk d)) :=
  C57_intersect_polygon_polygon (disk_valid hc) (disk_valid hd) (disk_clean hc hd)

/-- C58 `polygon & polygon` without holes. -/
theorem C58_intersect_holeless (hc : SimpleContour c) (hd : SimpleContour d) :
    ValidResult (intersectPolygonWithPolygon (disk c) (disk d)) :=
  C58_intersect_polygon_polygon (disk_valid hc) (disk_valid hd) (disk_clean hc hd)

/-- C59 `polygon & polygon` without holes. -/
theorem C59_intersect_holeless (hc : SimpleContour c) (hd : SimpleContour d) :
    Regular (fun a b => a ∧ b) [disk c] [disk d] (intersectPolygonWithPolygon (disk c) (disk d)) :=
  C59_intersect_polygon_polygon (disk_valid hc) (disk_valid hd) (disk_clean hc hd)

/-- C57 `polygon | polygon` without holes. -/
theorem C57_unite_holeless (hc : SimpleContour c) (hd : SimpleContour d) :
    Exact (fun a b => a ∨ b) [disk c] [disk d] (unitePolygonWithPolygon (disk c) (disk d)) :=
  C57_unite_polygon_polygon (disk_valid hc) (disk_valid hd) (disk_clean hc hd)

/-- C58 `polygon | polygon` without holes. -/
theorem C58_unite_holeless (hc : SimpleContour c) (hd : SimpleContour d) :
    ValidResult (unitePolygonWithPolygon (disk c) (disk d)) :=
  C58_unite_polygon_polygon (disk_valid hc) (disk_valid hd) (disk_clean hc hd)

/-- C59 `polygon | polygon` without holes. -/
theorem C59_unite_holeless (hc : SimpleContour c) (hd : SimpleContour d) :
    Regular (fun a b => a ∨ b) [disk c] [disk d] (unitePolygonWithPolygon (disk c) (disk d)) :=
  C59_unite_polygon_polygon (disk_valid hc) (disk_valid hd) (disk_clean hc hd)

/-- C57 `polygon ^ polygon` without holes. -/
theorem C57_symmetric_subtract_holeless (hc : SimpleContour c) (hd : SimpleContour d) :
    Exact (fun a b => Xor' a b) [disk c] [disk d] (symmetricSubtractPolygonFromPolygon (disk c) (disk d)) :=
  C57_symmetric_subtract_polygon_polygon (disk_valid hc) (disk_valid hd) (disk_clean hc hd)

/-- C58 `polygon ^ polygon` without holes. -/
theorem C58_symmetric_subtract_holeless (hc : SimpleContour c) (hd : SimpleContour d) :
    ValidResult (symmetricSubtractPolygonFromPolygon (disk c) (disk d)) :=
  C58_symmetric_subtract_polygon_polygon (disk_valid hc) (disk_valid hd) (disk_clean hc hd)

/-- C59 `polygon ^ polygon` without holes. -/
theorem C59_symmetric_subtract_holeless (hc : SimpleContour c) (hd : SimpleContour d) :
    Regular (fun a b => Xor' a b) [disk c] [disk d] (symmetricSubtractPolygonFromPolygon (disk c) (disk d)) :=
  C59_symmetric_subtract_polygon_polygon (disk_valid hc) (disk_valid hd) (disk_clean hc hd)

/-- C60 `polygon & polygon` without holes, swapped. -/
theorem C60_intersect_swap_holeless (hc : SimpleContour c) (hd : SimpleContour d) :
    SameLocations (intersectPolygonWithPolygon (disk c) (disk d)) (intersectPolygonWithPolygon (disk d) (disk c)) :=
  C60_intersect_swap_polygon_polygon (disk_valid hc) (disk_valid hd) (disk_clean hc hd)

/-- C60 `polygon | polygon` without holes, swapped. -/
theorem C60_unite_swap_holeless (hc : SimpleContour c) (hd : SimpleContour d) :
    SameLocations (unitePolygonWithPolygon (disk c) (disk d)) (unitePolygonWithPolygon (disk d) (disk c)) :=
  C60_unite_swap_polygon_polygon (disk_valid hc) (disk_valid hd) (disk_clean hc hd)

/-- C60 `polygon ^ polygon` without holes, swapped. -/
theorem C60_symmetric_subtract_swap_holeless (hc : SimpleContour c) (hd : SimpleContour d) :
    SameLocations (symmetricSubtractPolygonFromPolygon (disk c) (disk d)) (symmetricSubtractPolygonFromPolygon (disk d) (disk c)) :=
  C60_symmetric_subtract_swap_polygon_polygon (disk_valid hc) (disk_valid hd) (disk_clean hc hd)

end

/-! ### Concrete cases -/

/-- The hypotheses hold for contours with vertices of each inside of edges of the other one. -/
example : SimpleContour exTee.border ∧ SimpleContour exRing.border :=
  ⟨exTee_valid.1 _ (by simp [polygonContours]), exRing_valid.1 _ (by simp [polygonContours])⟩

end Rene
