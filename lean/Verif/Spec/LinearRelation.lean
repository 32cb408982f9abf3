import Verif.Spec.Basic
import Mathlib.Data.Set.Finite.Basic

/-! What each `Relation` means for two contours or multisegments, as point sets. -/

namespace Rene.Spec
open Rene

/-- Meaning of `Relation` for two finite unions of segments with the points `A` and `B`: parts of each other when
they are; OVERLAP when none is a part of the other one, and infinitely many points are common; CROSS and TOUCH when
some but only finitely many points are common (what distinguishes CROSS from TOUCH is not specified here). -/
def LinearRel (r : Relation) (A B : Set Point) : Prop :=
  match r with
  | .equal => A = B
  | .component => A ⊂ B
  | .composite => B ⊂ A
  | .overlap => ¬ A ⊆ B ∧ ¬ B ⊆ A ∧ (A ∩ B).Infinite
  | .cross => (A ∩ B).Finite ∧ (A ∩ B).Nonempty
  | .touch => (A ∩ B).Finite ∧ (A ∩ B).Nonempty
  | .disjoint => A ∩ B = ∅
  | _ => False

end Rene.Spec
