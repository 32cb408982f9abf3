import Verif.Model.Geometries
import Mathlib.Data.Nat.Size

/-! Model of helper functions: seeded permutation, seed validation, in-circle test, collinear vertex
shrinking, deduplication, base cases of triangulations and views of components. -/

namespace Rene

/-- Exchange of two items of a list: `values[i], values[j] = values[j], values[i]`
(`rene/_utils.py` 299-302). Out-of-range positions, which raise in Python, leave the list unchanged;
`permute` never uses one. -/
def swapAt {α : Type} (l : List α) (i j : Nat) : List α :=
  match l[i]?, l[j]? with
  | some a, some b => (l.set i b).set j a
  | _, _ => l

/-- `rene/_utils.py` 298-303: the loop of `permute` with `step` going down to 1. -/
def permuteLoop {α : Type} : Nat → Nat → List α → List α
  | 0, _, l => l
  | step + 1, seed, l => permuteLoop step (seed / (step + 1)) (swapAt l (seed % (step + 1)) step)

/-- `rene/_utils.py` 288-303: `permute`; the list which it leaves in place. -/
def permute {α : Type} (values : List α) (seed : Nat) : List α := permuteLoop values.length seed values

/-- A Python value given as a seed: an integer or something else. -/
inductive SeedArg where
  | int (value : Int)
  | other
  deriving DecidableEq

/-- `rene/_utils.py` 481-496: `validate_seed`, `none` when it returns and the type of the raised error
otherwise; the default of `_max_usize_value` is `(sys.maxsize << 1) + 1`. -/
def validateSeed (seed : SeedArg) (maxUsizeValue : Int) : Option Err :=
  match seed with
  | .other => some .typeError
  | .int value =>
    if value < 0 then some .valueError
    else if value > maxUsizeValue then some .overflowError
    else none

/-- `rene/_utils.py` 185-213: `locate_point_in_point_point_point_circle`. -/
def locatePointInCircle (point first second third : Point) : Location :=
  let firstDx := first.x - point.x
  let firstDy := first.y - point.y
  let secondDx := second.x - point.x
  let secondDy := second.y - point.y
  let thirdDx := third.x - point.x
  let thirdDy := third.y - point.y
  let raw := toSign
    (((firstDx * firstDx + firstDy * firstDy) * (secondDx * thirdDy - secondDy * thirdDx))
      - ((secondDx * secondDx + secondDy * secondDy) * (firstDx * thirdDy - firstDy * thirdDx))
      + ((thirdDx * thirdDx + thirdDy * thirdDy) * (firstDx * secondDy - firstDy * secondDx)))
  if raw = 0 then .boundary else if raw > 0 then .interior else .exterior

/-- `rene/_utils.py` 352-363: the rest of the loop of `shrink_collinear_vertices`, when `last` is
`result[-1]` and `first` is `result[0]`; gives the vertices still to be appended. -/
def shrinkLoop (first last : Point) : List Point → List Point
  | [] => []
  | [v] => if orient last v first ≠ .collinear then [v] else []
  | v :: w :: rest =>
    if orient last v w ≠ .collinear then v :: shrinkLoop first v (w :: rest)
    else shrinkLoop first last (w :: rest)

/-- `rene/_utils.py` 346-364: `shrink_collinear_vertices`. -/
def shrinkCollinearVertices : List Point → List Point
  | [] => []
  | v :: rest => v :: shrinkLoop v v rest

/-- `rene/_utils.py` 93-94: `ceil_log2` for positive numbers; `Nat.size` is `bit_length`. -/
def ceilLog2 (number : Nat) : Nat := number.size - (if number &&& (number - 1) = 0 then 1 else 0)

/-- `rene/_triangulation/mesh.py` 440-452: `to_base_cases`. -/
def toBaseCases (pointsCount : Nat) : Nat × Nat :=
  let trianglesCount := pointsCount / 3
  let restPoints := pointsCount % 3
  if restPoints = 0 then (0, trianglesCount)
  else if restPoints = 1 then (2, trianglesCount - 1)
  else (1, trianglesCount)

/-! ### Component views -/

/-- Python's `tuple.__getitem__` with an integer, used by the views
(`rene/_exact/contour.py` 106-111, 178-183, `rene/_exact/multisegment.py` 101-106). -/
def pyGetItem {α : Type} (items : List α) (index : Int) : Except Err α :=
  let position := if index < 0 then index + items.length else index
  if 0 ≤ position then
    match items[position.toNat]? with
    | some item => .ok item
    | none => .error .indexError
  else .error .indexError

/-- Python's `tuple.count`, used by the views (`rene/_exact/contour.py` 59-60, 131-132,
`rene/_exact/multisegment.py` 54-55), with `==` of the elements. -/
def pyCount {α : Type} (eq : α → α → Bool) (items : List α) (value : α) : Nat :=
  (items.filter fun item => eq item value).length

/-- Python's `tuple.index` from `start`, used by the views (`rene/_exact/contour.py` 62-70, 134-142). -/
def pyIndexFrom {α : Type} (eq : α → α → Bool) (value : α) : List α → Nat → Except Err Nat
  | [], _ => .error .valueError
  | item :: rest, position => if eq item value then .ok position else pyIndexFrom eq value rest (position + 1)

end Rene
