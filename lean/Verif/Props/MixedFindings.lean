import Verif.Model.Mixed
import Verif.Spec.Geom

/-! # C41: linear minus polygon and the bounding box shortcut -/

namespace Rene
open Spec

/-- A square with sides of length four. -/
def Spec.square4 : Polygon := ⟨⟨[⟨0, 0⟩, ⟨4, 0⟩, ⟨4, 4⟩, ⟨0, 4⟩]⟩, []⟩

/-- Two segments, the first along the bottom side of the square, the second below the square. -/
def Spec.elbow : List Segment := [⟨⟨0, 0⟩, ⟨2, 0⟩⟩, ⟨⟨2, 0⟩, ⟨2, -1⟩⟩]

/-- C41 (finding, the negation of the property): the multisegment `elbow` minus the square is returned
unchanged, with its piece along the border, because the bounding boxes have no common area; after adding an
unrelated segment, reaching into the square, the piece along the border is removed.  (In the second result
every remaining piece is listed twice, in both directions.) -/
theorem C41_border_piece_depends_on_box :
    subtractPolygonFromMultisegmental (.multisegment ⟨elbow⟩) square4 =
      .ok (.multisegment ⟨elbow⟩) ∧
    subtractPolygonFromMultisegmental (.multisegment ⟨elbow ++ [⟨⟨3, 1⟩, ⟨3, -2⟩⟩]⟩) square4 =
      .ok (.multisegment ⟨[⟨⟨2, -1⟩, ⟨2, 0⟩⟩, ⟨⟨2, 0⟩, ⟨2, -1⟩⟩, ⟨⟨3, -2⟩, ⟨3, 0⟩⟩, ⟨⟨3, 0⟩, ⟨3, -2⟩⟩]⟩) := by
  decide +kernel

end Rene
