import Mathlib.Algebra.Order.Field.Rat
import Mathlib.Data.Rat.Defs

/-!
# Scalars, points, enumerations, orientation

Model of `rene/_enums.py`, `rene/_geometries/base_point.py`, the exact predicates of
`rene/_exact/__init__.py` and scalar helpers of `rene/_utils.py`.
Scalars are exact rationals (`rithm.fraction.Fraction` in the code).
-/

namespace Rene

/-- `rene/_enums.py` 16-22: `class Location`. -/
inductive Location where
  | boundary | exterior | interior
  deriving DecidableEq, Repr

/-- `rene/_enums.py` 27-30: `class Orientation`. -/
inductive Orientation where
  | clockwise | collinear | counterclockwise
  deriving DecidableEq, Repr

/-- `rene/_enums.py` 35-80: `class Relation`. -/
inductive Relation where
  | component | composite | cover | cross | disjoint | enclosed | encloses | equal | overlap
  | touch | within
  deriving DecidableEq, Repr

/-- `rene/_enums.py` 83-103: `Relation.complement`. -/
def Relation.complement (r : Relation) : Relation :=
  if r = .cross ∨ r = .disjoint ∨ r = .equal ∨ r = .overlap ∨ r = .touch then r
  else if r = .component then .composite
  else if r = .composite then .component
  else if r = .cover then .within
  else if r = .enclosed then .encloses
  else if r = .encloses then .enclosed
  else .cover

/-- `rene/_exact/point.py`: `class Point`; equality is `rene/_geometries/base_point.py` 28-33
(componentwise, which is Lean's structural equality). -/
structure Point where
  x : ℚ
  y : ℚ
  deriving DecidableEq, Repr

/-- `rene/_geometries/base_point.py` 28-33: `BasePoint.__eq__`. -/
def Point.eqB (a b : Point) : Bool := decide (a.x = b.x) && decide (a.y = b.y)

/-- `rene/_geometries/base_point.py` 83-88: `BasePoint.__lt__`. -/
def Point.ltB (a b : Point) : Bool := decide (a.x < b.x) || (decide (a.x = b.x) && decide (a.y < b.y))

/-- `rene/_geometries/base_point.py` 70-75: `BasePoint.__le__`. -/
def Point.leB (a b : Point) : Bool := decide (a.x < b.x) || (decide (a.x = b.x) && decide (a.y ≤ b.y))

/-- `rene/_geometries/base_point.py` 54-59: `BasePoint.__gt__`. -/
def Point.gtB (a b : Point) : Bool := decide (a.x > b.x) || (decide (a.x = b.x) && decide (a.y > b.y))

/-- `rene/_geometries/base_point.py` 41-46: `BasePoint.__ge__`. -/
def Point.geB (a b : Point) : Bool := decide (a.x > b.x) || (decide (a.x = b.x) && decide (a.y ≥ b.y))

/-- `rene/_geometries/base_point.py` 61-62: `BasePoint.__hash__` hashes this pair. -/
def Point.hashKey (a : Point) : ℚ × ℚ := (a.x, a.y)

/-- `rene/_utils.py` 149-158: `cross_multiply`. -/
def crossMultiply (firstStart firstEnd secondStart secondEnd : Point) : ℚ :=
  (firstEnd.x - firstStart.x) * (secondEnd.y - secondStart.y)
    - (firstEnd.y - firstStart.y) * (secondEnd.x - secondStart.x)

/-- `rene/_utils.py` 471-472: `to_sign`. -/
def toSign (value : ℚ) : Int := if value > 0 then 1 else if value ≠ 0 then -1 else 0

/-- `rene/_exact/__init__.py` 29-44: `orient`. -/
def orient (vertex firstRayPoint secondRayPoint : Point) : Orientation :=
  let raw := toSign (crossMultiply vertex firstRayPoint vertex secondRayPoint)
  if raw = 0 then .collinear else if raw > 0 then .counterclockwise else .clockwise

/-- `rene/_exact/__init__.py` 63-72: `to_segments_intersection_scale`.  (Python raises
`ZeroDivisionError` on a zero divisor; callers only use it when the divisor is non-zero, which the
theorems carry as a hypothesis.) -/
def toSegmentsIntersectionScale (firstStart firstEnd secondStart secondEnd : Point) : ℚ :=
  crossMultiply firstStart secondStart secondStart secondEnd
    / crossMultiply firstStart firstEnd secondStart secondEnd

/-- `rene/_exact/__init__.py` 47-60: `to_segments_intersection`. -/
def toSegmentsIntersection (firstStart firstEnd secondStart secondEnd : Point) : Point :=
  let scale := toSegmentsIntersectionScale firstStart firstEnd secondStart secondEnd
  ⟨firstStart.x + (firstEnd.x - firstStart.x) * scale,
   firstStart.y + (firstEnd.y - firstStart.y) * scale⟩

/-- `rene/_utils.py` 475-478: `to_sorted_pair` on points. -/
def toSortedPair (first second : Point) : Point × Point :=
  if first.ltB second then (first, second) else (second, first)

/-- `rene/_exact/segment.py`: `class Segment` (no validation in the constructor). -/
structure Segment where
  start : Point
  «end» : Point
  deriving DecidableEq, Repr

/-- `rene/_exact/box.py`: `class Box` (no validation in the constructor). -/
structure Box where
  minX : ℚ
  maxX : ℚ
  minY : ℚ
  maxY : ℚ
  deriving DecidableEq, Repr

/-- `rene/_utils.py` 239-266: `locate_point_in_segment`. -/
def locatePointInSegment (start end_ point : Point) : Location :=
  if start = point ∨ end_ = point
      ∨ ((if start.x ≤ end_.x then start.x ≤ point.x ∧ point.x ≤ end_.x
          else end_.x < point.x ∧ point.x < start.x)
        ∧ (if start.y ≤ end_.y then start.y ≤ point.y ∧ point.y ≤ end_.y
          else end_.y < point.y ∧ point.y < start.y)
        ∧ orient start end_ point = .collinear)
  then .boundary else .exterior

/-- `rene/_geometries/base_segment.py` 54-57: `BaseSegment.locate`. -/
def Segment.locate (s : Segment) (point : Point) : Location :=
  locatePointInSegment s.start s.end point

end Rene
