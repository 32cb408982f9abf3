import Verif.Model.Linear
import Verif.Model.ContourOps
import Verif.Model.Relating

/-! Model of the operators `&`, `|`, `-`, `^`, `==`, `in`, `locate` and `relate_to` of the compound geometries as
far as they dispatch on the types of the operands. -/

namespace Rene

/-- The functions of `rene/_clipping` and `rene/_relating` with a polygon or multipolygon operand (and the
relating sweeps) are parameters here: the theorems about dispatching hold whatever they compute. -/
structure ShapedOps where
  intersect : Geom → Geom → Except Err Geom
  unite : Geom → Geom → Except Err Geom
  subtract : Geom → Geom → Except Err Geom
  symmetricSubtract : Geom → Geom → Except Err Geom
  relate : Geom → Geom → Except Err Relation

namespace Geom

/-- `a & b`: `rene/_geometries/base_empty.py` 31-33, `base_segment.py` 122-173, `base_contour.py` 170-223,
`base_multisegment.py` 155-208, `base_polygon.py` 124-182, `base_multipolygon.py` 131-189.  No class defines
reflected operators, so `NotImplemented` becomes `TypeError`. -/
def and (ops : ShapedOps) : Geom → Geom → Except Err Geom
  | .empty, _ => .ok .empty
  | .segment a, .contour b => intersectSegmentWithMultisegmental a (.contour b)
  | .segment a, .multisegment b => intersectSegmentWithMultisegmental a (.multisegment b)
  | .segment a, .segment b => .ok (intersectSegmentWithSegment a b)
  | .contour a, .contour b => intersectMultisegmentals (.contour a) (.contour b)
  | .contour a, .multisegment b => intersectMultisegmentals (.contour a) (.multisegment b)
  | .contour a, .segment b => intersectMultisegmentalWithSegment (.contour a) b
  | .multisegment a, .contour b => intersectMultisegmentals (.multisegment a) (.contour b)
  | .multisegment a, .multisegment b => intersectMultisegmentals (.multisegment a) (.multisegment b)
  | .multisegment a, .segment b => intersectMultisegmentalWithSegment (.multisegment a) b
  | _, .empty => .ok .empty
  | a, b => ops.intersect a b

/-- `a | b`: `rene/_geometries/base_empty.py` 56-58, `base_segment.py` 214-242, `base_contour.py` 281-309,
`base_multisegment.py` 246-274, `base_polygon.py` 222-254, `base_multipolygon.py` 225-257. -/
def or (ops : ShapedOps) : Geom → Geom → Except Err Geom
  | .empty, b => .ok b
  | .segment a, .contour b => uniteSegmentWithMultisegmental a (.contour b)
  | .segment a, .multisegment b => uniteSegmentWithMultisegmental a (.multisegment b)
  | .segment a, .segment b => uniteSegmentWithSegment a b
  | .contour a, .contour b => uniteMultisegmentals (.contour a) (.contour b)
  | .contour a, .multisegment b => uniteMultisegmentals (.contour a) (.multisegment b)
  | .contour a, .segment b => uniteMultisegmentalWithSegment (.contour a) b
  | .multisegment a, .contour b => uniteMultisegmentals (.multisegment a) (.contour b)
  | .multisegment a, .multisegment b => uniteMultisegmentals (.multisegment a) (.multisegment b)
  | .multisegment a, .segment b => uniteMultisegmentalWithSegment (.multisegment a) b
  | a, .empty => .ok a
  | .polygon a, .polygon b => ops.unite (.polygon a) (.polygon b)
  | .polygon a, .multipolygon b => ops.unite (.polygon a) (.multipolygon b)
  | .multipolygon a, .polygon b => ops.unite (.multipolygon a) (.polygon b)
  | .multipolygon a, .multipolygon b => ops.unite (.multipolygon a) (.multipolygon b)
  | _, _ => .error .typeError

/-- `a - b`: `rene/_geometries/base_empty.py` 69-71, `base_segment.py` 271-301, `base_contour.py` 344-398,
`base_multisegment.py` 308-362, `base_polygon.py` 285-319, `base_multipolygon.py` 288-322.  A segment does not
support polygons and multipolygons on the right. -/
def sub (ops : ShapedOps) : Geom → Geom → Except Err Geom
  | .empty, _ => .ok .empty
  | .segment a, .contour b => subtractMultisegmentalFromSegment a (.contour b)
  | .segment a, .multisegment b => subtractMultisegmentalFromSegment a (.multisegment b)
  | .segment a, .segment b => subtractSegmentFromSegment a b
  | .contour a, .contour b => subtractMultisegmentals (.contour a) (.contour b)
  | .contour a, .multisegment b => subtractMultisegmentals (.contour a) (.multisegment b)
  | .contour a, .segment b => subtractSegmentFromMultisegmental (.contour a) b
  | .multisegment a, .contour b => subtractMultisegmentals (.multisegment a) (.contour b)
  | .multisegment a, .multisegment b => subtractMultisegmentals (.multisegment a) (.multisegment b)
  | .multisegment a, .segment b => subtractSegmentFromMultisegmental (.multisegment a) b
  | a, .empty => .ok a
  | .contour a, .polygon b => ops.subtract (.contour a) (.polygon b)
  | .contour a, .multipolygon b => ops.subtract (.contour a) (.multipolygon b)
  | .multisegment a, .polygon b => ops.subtract (.multisegment a) (.polygon b)
  | .multisegment a, .multipolygon b => ops.subtract (.multisegment a) (.multipolygon b)
  | .polygon a, .polygon b => ops.subtract (.polygon a) (.polygon b)
  | .polygon a, .multipolygon b => ops.subtract (.polygon a) (.multipolygon b)
  | .multipolygon a, .polygon b => ops.subtract (.multipolygon a) (.polygon b)
  | .multipolygon a, .multipolygon b => ops.subtract (.multipolygon a) (.multipolygon b)
  | _, _ => .error .typeError

/-- `a ^ b`: `rene/_geometries/base_empty.py` 82-84, `base_segment.py` 324-354, `base_contour.py` 421-451,
`base_multisegment.py` 385-415, `base_polygon.py` 340-374, `base_multipolygon.py` 343-377. -/
def xor (ops : ShapedOps) : Geom → Geom → Except Err Geom
  | .empty, b => .ok b
  | .segment a, .contour b => symmetricSubtractMultisegmentalFromSegment a (.contour b)
  | .segment a, .multisegment b => symmetricSubtractMultisegmentalFromSegment a (.multisegment b)
  | .segment a, .segment b => symmetricSubtractSegmentFromSegment a b
  | .contour a, .contour b => symmetricSubtractMultisegmentals (.contour a) (.contour b)
  | .contour a, .multisegment b => symmetricSubtractMultisegmentals (.contour a) (.multisegment b)
  | .contour a, .segment b => symmetricSubtractSegmentFromMultisegmental (.contour a) b
  | .multisegment a, .contour b => symmetricSubtractMultisegmentals (.multisegment a) (.contour b)
  | .multisegment a, .multisegment b => symmetricSubtractMultisegmentals (.multisegment a) (.multisegment b)
  | .multisegment a, .segment b => symmetricSubtractSegmentFromMultisegmental (.multisegment a) b
  | a, .empty => .ok a
  | .polygon a, .polygon b => ops.symmetricSubtract (.polygon a) (.polygon b)
  | .polygon a, .multipolygon b => ops.symmetricSubtract (.polygon a) (.multipolygon b)
  | .multipolygon a, .polygon b => ops.symmetricSubtract (.multipolygon a) (.polygon b)
  | .multipolygon a, .multipolygon b => ops.symmetricSubtract (.multipolygon a) (.multipolygon b)
  | _, _ => .error .typeError

/-- `a.locate(p)`: `rene/_geometries/base_empty.py` 16-17 and the `locate` methods of the other classes. -/
def locate : Geom → Point → Location
  | .empty, _ => .exterior
  | .segment a, p => a.locate p
  | .contour a, p => a.locate p
  | .multisegment a, p => a.locate p
  | .polygon a, p => a.locate p
  | .multipolygon a, p => a.locate p

/-- `p in a`: `rene/_geometries/base_empty.py` 35-36 and the `__contains__` methods of the other classes
(`base_segment.py` 175-176, `base_contour.py` 225-226, `base_multisegment.py` 210-211, `base_polygon.py` 184-185,
`base_multipolygon.py` 191-192). -/
def contains : Geom → Point → Bool
  | .empty, _ => false
  | a, p => decide (a.locate p ≠ .exterior)

/-- `a == b` (`isinstance(other, type(self))`, otherwise both sides give `NotImplemented`, which Python turns into
identity, so `False`): `rene/_geometries/base_empty.py` 44-45 and the `__eq__` methods of the other classes. -/
def eqB : Geom → Geom → Bool
  | .empty, .empty => true
  | .segment a, .segment b => a.eqB b
  | .contour a, .contour b => a.eqB b
  | .multisegment a, .multisegment b => a.eqB b
  | .polygon a, .polygon b => a.eqB b
  | .multipolygon a, .multipolygon b => a.eqB b
  | _, _ => false

/-- `a.relate_to(b)` when one of them is empty: `rene/_geometries/base_empty.py` 19-24, `base_segment.py` 63-64,
and the same lines of the other classes; otherwise a parameter. -/
def relateTo (ops : ShapedOps) : Geom → Geom → Except Err Relation
  | .empty, .empty => .ok .equal
  | .empty, _ => .ok .disjoint
  | _, .empty => .ok .disjoint
  | .segment a, .segment b => .ok (a.relateToSegment b)
  | a, b => ops.relate a b

end Geom

/-- `rene/_geometries/base_empty.py` 47-48: `BaseEmpty.__hash__`. -/
def emptyHash : Int := 0

end Rene
