import Verif.Model.Basic
import Mathlib.Data.Set.Basic

/-!
# Point-set specifications

Independent of the code: segments, boxes and polylines as sets of rational points.
-/

namespace Rene.Spec
open Rene

/-- Point at parameter `t` on the way from `a` to `b`. -/
def lerp (a b : Point) (t : ℚ) : Point := ⟨a.x + t * (b.x - a.x), a.y + t * (b.y - a.y)⟩

/-- The closed segment between two points: all convex combinations. -/
def seg (a b : Point) : Set Point := {p | ∃ t : ℚ, 0 ≤ t ∧ t ≤ 1 ∧ p = lerp a b t}

/-- Points of a `Segment`. -/
def segPts (s : Segment) : Set Point := seg s.start s.end

/-- The segment without its endpoints (relative interior), for different endpoints. -/
def openSeg (a b : Point) : Set Point := {p | ∃ t : ℚ, 0 < t ∧ t < 1 ∧ p = lerp a b t}

/-- Union of the points of a list of segments. -/
def segsPts (l : List Segment) : Set Point := {p | ∃ s ∈ l, p ∈ segPts s}

/-- A set has at most one point. -/
def AtMostOne (S : Set Point) : Prop := ∀ p ∈ S, ∀ q ∈ S, p = q

/-- Closed rectangle. -/
def boxPts (b : Box) : Set Point := {p | b.minX ≤ p.x ∧ p.x ≤ b.maxX ∧ b.minY ≤ p.y ∧ p.y ≤ b.maxY}

/-- Open rectangle. -/
def boxInterior (b : Box) : Set Point := {p | b.minX < p.x ∧ p.x < b.maxX ∧ b.minY < p.y ∧ p.y < b.maxY}

/-- Rectangle border: closed rectangle minus open rectangle. -/
def boxBoundary (b : Box) : Set Point := {p | p ∈ boxPts b ∧ p ∉ boxInterior b}

/-- Lexicographic order on points. -/
def lexLt (a b : Point) : Prop := a.x < b.x ∨ (a.x = b.x ∧ a.y < b.y)

/-- Twice the signed area of the triangle `a b c` (shoelace formula). -/
def area2 (a b c : Point) : ℚ := a.x * b.y - b.x * a.y + (b.x * c.y - c.x * b.y) + (c.x * a.y - a.x * c.y)

end Rene.Spec
