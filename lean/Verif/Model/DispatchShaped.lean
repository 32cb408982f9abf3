import Verif.Model.Dispatch
import Verif.Model.Mixed
import Verif.Model.Shaped

/-! The functions which the operators of the compound geometries dispatch to when an operand is a polygon or a
multipolygon. -/

namespace Rene

/-- `&` with a polygonal operand: `rene/_geometries/base_segment.py` 122-173, `base_contour.py` 170-223,
`base_multisegment.py` 155-208, `base_polygon.py` 124-182, `base_multipolygon.py` 131-189. -/
def intersectShaped : Geom → Geom → Except Err Geom
  | .segment a, .polygon b => intersectSegmentWithPolygon a b
  | .segment a, .multipolygon b => intersectSegmentWithMultipolygon a b
  | .contour a, .polygon b => intersectMultisegmentalWithPolygon (.contour a) b
  | .contour a, .multipolygon b => intersectMultisegmentalWithMultipolygon (.contour a) b
  | .multisegment a, .polygon b => intersectMultisegmentalWithPolygon (.multisegment a) b
  | .multisegment a, .multipolygon b => intersectMultisegmentalWithMultipolygon (.multisegment a) b
  | .polygon a, .segment b => intersectPolygonWithSegment a b
  | .polygon a, .contour b => intersectPolygonWithMultisegmental a (.contour b)
  | .polygon a, .multisegment b => intersectPolygonWithMultisegmental a (.multisegment b)
  | .polygon a, .polygon b => intersectPolygonWithPolygon a b
  | .polygon a, .multipolygon b => intersectPolygonWithMultipolygon a b
  | .multipolygon a, .segment b => intersectMultipolygonWithSegment a b
  | .multipolygon a, .contour b => intersectMultipolygonWithMultisegmental a (.contour b)
  | .multipolygon a, .multisegment b => intersectMultipolygonWithMultisegmental a (.multisegment b)
  | .multipolygon a, .polygon b => intersectMultipolygonWithPolygon a b
  | .multipolygon a, .multipolygon b => intersectMultipolygonWithMultipolygon a b
  | _, _ => .error .typeError

/-- `|` of polygonal operands: `rene/_geometries/base_polygon.py` 222-254, `base_multipolygon.py` 225-257. -/
def uniteShaped : Geom → Geom → Except Err Geom
  | .polygon a, .polygon b => unitePolygonWithPolygon a b
  | .polygon a, .multipolygon b => unitePolygonWithMultipolygon a b
  | .multipolygon a, .polygon b => uniteMultipolygonWithPolygon a b
  | .multipolygon a, .multipolygon b => uniteMultipolygonWithMultipolygon a b
  | _, _ => .error .typeError

/-- `-` with a polygonal right operand: `rene/_geometries/base_contour.py` 344-398, `base_multisegment.py` 308-362,
`base_polygon.py` 285-319, `base_multipolygon.py` 288-322. -/
def subtractShaped : Geom → Geom → Except Err Geom
  | .contour a, .polygon b => subtractPolygonFromMultisegmental (.contour a) b
  | .contour a, .multipolygon b => subtractMultipolygonFromMultisegmental (.contour a) b
  | .multisegment a, .polygon b => subtractPolygonFromMultisegmental (.multisegment a) b
  | .multisegment a, .multipolygon b => subtractMultipolygonFromMultisegmental (.multisegment a) b
  | .polygon a, .polygon b => subtractPolygonFromPolygon a b
  | .polygon a, .multipolygon b => subtractMultipolygonFromPolygon a b
  | .multipolygon a, .polygon b => subtractPolygonFromMultipolygon a b
  | .multipolygon a, .multipolygon b => subtractMultipolygonFromMultipolygon a b
  | _, _ => .error .typeError

/-- `^` of polygonal operands: `rene/_geometries/base_polygon.py` 340-374, `base_multipolygon.py` 343-377. -/
def symmetricSubtractShaped : Geom → Geom → Except Err Geom
  | .polygon a, .polygon b => symmetricSubtractPolygonFromPolygon a b
  | .polygon a, .multipolygon b => symmetricSubtractMultipolygonFromPolygon a b
  | .multipolygon a, .polygon b => symmetricSubtractPolygonFromMultipolygon a b
  | .multipolygon a, .multipolygon b => symmetricSubtractMultipolygonFromMultipolygon a b
  | _, _ => .error .typeError

/-- The functions the operators dispatch to; relating is not one of the operators, so it stays a parameter. -/
def shapedOps (relate : Geom → Geom → Except Err Relation) : ShapedOps :=
  ⟨intersectShaped, uniteShaped, subtractShaped, symmetricSubtractShaped, relate⟩

end Rene
