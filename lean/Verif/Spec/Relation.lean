import Verif.Spec.Basic

/-! What each `Relation` means for two segments, as point sets. -/

namespace Rene.Spec
open Rene

/-- Meaning of `Relation` for the segments `ab` and `cd` (both non-degenerate). -/
def SegRel (r : Relation) (a b c d : Point) : Prop :=
  match r with
  | .equal => seg a b = seg c d
  | .component => seg a b ⊂ seg c d
  | .composite => seg c d ⊂ seg a b
  | .overlap => ¬ seg a b ⊆ seg c d ∧ ¬ seg c d ⊆ seg a b ∧ ¬ AtMostOne (seg a b ∩ seg c d)
  | .cross => ∃ p, seg a b ∩ seg c d = {p} ∧ p ∈ openSeg a b ∧ p ∈ openSeg c d
  | .touch => ∃ p, seg a b ∩ seg c d = {p} ∧ (p = a ∨ p = b ∨ p = c ∨ p = d)
  | .disjoint => seg a b ∩ seg c d = ∅
  | _ => False

end Rene.Spec
