import Verif.Spec.Basic

/-! What the relations mean for two rectangles, as point sets. -/

namespace Rene.Spec
open Rene

/-- A box with positive width and height. -/
def PosArea (b : Box) : Prop := b.minX < b.maxX ∧ b.minY < b.maxY

/-- A box which may be degenerate. -/
def ValidBox (b : Box) : Prop := b.minX ≤ b.maxX ∧ b.minY ≤ b.maxY

/-- Meaning of `Relation` for two closed rectangles. -/
def BoxRel (r : Relation) (a b : Box) : Prop :=
  match r with
  | .disjoint => boxPts a ∩ boxPts b = ∅
  | .touch => boxPts a ∩ boxPts b ≠ ∅ ∧ boxInterior a ∩ boxInterior b = ∅
  | .overlap => boxInterior a ∩ boxInterior b ≠ ∅ ∧ ¬ boxPts a ⊆ boxPts b ∧ ¬ boxPts b ⊆ boxPts a
  | .equal => boxPts a = boxPts b
  | .cover => boxPts b ⊆ boxInterior a
  | .within => boxPts a ⊆ boxInterior b
  | .encloses => boxPts b ⊂ boxPts a ∧ (boxPts b ∩ boxBoundary a).Nonempty
  | .enclosed => boxPts a ⊂ boxPts b ∧ (boxPts a ∩ boxBoundary b).Nonempty
  | _ => False

end Rene.Spec

namespace Rene.Spec
open Rene

/-- `b` is the least box containing `S`: it contains `S` and each of its four sides is reached. -/
def IsTightBox (S : Set Point) (b : Box) : Prop :=
  S ⊆ boxPts b ∧ (∃ p ∈ S, p.x = b.minX) ∧ (∃ p ∈ S, p.x = b.maxX) ∧ (∃ p ∈ S, p.y = b.minY)
    ∧ (∃ p ∈ S, p.y = b.maxY)

end Rene.Spec
