import Verif.Model.Basic
import Mathlib.Data.Finset.Insert

/-! Model of segment equality and hashing. -/

namespace Rene

/-- `rene/_geometries/base_segment.py` 189-195: `BaseSegment.__eq__` between segments. -/
def Segment.eqB (a b : Segment) : Bool :=
  (a.start.eqB b.start && a.end.eqB b.end) || (a.end.eqB b.start && a.start.eqB b.end)

/-- `rene/_geometries/base_segment.py` 178-179: `BaseSegment.__hash__` hashes this frozen set (the hash
of a frozenset is a function of the set; `==` and `hash` of points are componentwise). -/
def Segment.hashKey (s : Segment) : Finset Point := {s.start, s.end}

/-- `rene/_geometries/base_segment.py` 175-176: `BaseSegment.__contains__`. -/
def Segment.contains (s : Segment) (p : Point) : Bool := decide (s.locate p ≠ .exterior)

/-- `Segment(end, start)`. -/
def Segment.reverse (s : Segment) : Segment := ⟨s.end, s.start⟩

end Rene
