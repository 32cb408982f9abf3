import Verif.Props.RelateShaped
import Verif.Props.MixedExamples

/-! C54: concrete cases and findings. -/

namespace Rene
open Spec Sweep

instance (p : Polygon) : Decidable (Oriented p) := by unfold Oriented; infer_instance

/-! ### Concrete cases -/

namespace Spec

/-- A rectangle, counterclockwise. -/
def rectangle (a b c d : ℚ) : Contour := ⟨[⟨a, b⟩, ⟨c, b⟩, ⟨c, d⟩, ⟨a, d⟩]⟩
/-- A rectangle, clockwise. -/
def rectangle' (a b c d : ℚ) : Contour := ⟨[⟨a, b⟩, ⟨a, d⟩, ⟨c, d⟩, ⟨c, b⟩]⟩

/-- A frame. -/
def frame : Polygon := ⟨rectangle 0 0 10 10, [rectangle' 1 1 9 9]⟩
/-- A square in the hole of the frame. -/
def yolk : Polygon := ⟨rectangle 2 2 4 4, []⟩
/-- The frame and the square. -/
def egg : Multipolygon := ⟨[frame, yolk]⟩
/-- A square which contains the other one. -/
def slab : Polygon := ⟨rectangle 2 2 5 5, []⟩
/-- The frame without a hole, apart from a small one, and a square outside. -/
def tiles : Multipolygon := ⟨[⟨rectangle 0 0 10 10, [rectangle' 6 6 7 7]⟩, ⟨rectangle 20 0 21 1, []⟩]⟩

end Spec

theorem frame_valid : ValidPolygon frame := valid_of_validB (by decide +kernel)
theorem yolk_valid : ValidPolygon yolk := valid_of_validB (by decide +kernel)
theorem slab_valid : ValidPolygon slab := valid_of_validB (by decide +kernel)
theorem tiles_valid : ValidPolygons tiles.polygons := valids_of_validsB (by decide +kernel)

theorem yolk_inside : Inside yolk.border (rectangle' 1 1 9 9) := by
  have key : ∀ q, locatePointInRegion yolk.border q ≠ .exterior → locatePointInRegion (rectangle' 1 1 9 9) q = .interior :=
    fun q k => inside_of_boxInsideB (b := yolk.boundingBox) (by decide +kernel) (in_box_of_located (by decide) k)
  exact fun q => ⟨fun k => key q (by rw [k]; decide), fun k => by rw [key q (by rw [k]; decide)]; decide⟩

theorem egg_valid : ValidPolygons egg.polygons := by
  refine ⟨?_, noOverlap_of_empty (by decide +kernel), ?_⟩
  · intro p hp
    simp only [egg, List.mem_cons, List.not_mem_nil, or_false] at hp
    rcases hp with rfl | rfl
    · exact frame_valid
    · exact yolk_valid
  · show List.Pairwise _ [frame, yolk]
    rw [List.pairwise_pair]
    have key : ∀ q, yolk.locate q ≠ .exterior → frame.locate q = .exterior := fun q k => by
      refine (polygon_exterior frame_valid q).mpr (Or.inr ⟨rectangle' 1 1 9 9, by simp [frame], ?_⟩)
      exact inside_of_boxInsideB (b := yolk.boundingBox) (by decide +kernel) (validPolygon_box yolk_valid k)
    exact fun q => ⟨(fun ⟨a, b⟩ => by rw [key q b] at a; cases a), fun ⟨a, b⟩ => b (key q (by rw [a]; decide))⟩

theorem egg_nested : Nested egg.polygons := by
  show List.Pairwise _ [frame, yolk]
  rw [List.pairwise_pair]
  exact Or.inr (Or.inl ⟨_, by simp [frame], yolk_inside⟩)

theorem tiles_nested : Nested tiles.polygons := by
  unfold Nested tiles
  rw [List.pairwise_pair]
  have key : ∀ q, locatePointInRegion (rectangle 0 0 10 10) q ≠ .exterior → locatePointInRegion (rectangle 20 0 21 1) q ≠ .exterior →
      False := fun q a b => not_both_of_apartB (a := (rectangle 0 0 10 10).boundingBox) (b := (rectangle 20 0 21 1).boundingBox)
    (by decide +kernel) (in_box_of_located (by decide) a) (in_box_of_located (by decide) b)
  exact Or.inl fun q => ⟨fun ⟨a, b⟩ => key q (by rw [a]; decide) b, fun ⟨a, b⟩ => key q b (by rw [a]; decide)⟩

theorem egg_oriented : ∀ p ∈ egg.polygons, Oriented p := by decide +kernel
theorem tiles_oriented : ∀ p ∈ tiles.polygons, Oriented p := by decide +kernel

/-- C54: the hypotheses hold in concrete cases (with a polygon in a hole of another one), and the answers are of all
kinds. -/
example : (∃ rel, relateMultipolygonToMultipolygon egg tiles = .ok rel ∧ ShapedRel egg.locate tiles.locate rel) ∧
    (∃ rel, relatePolygonToMultipolygon slab egg = .ok rel ∧ ShapedRel slab.locate egg.locate rel) ∧
    (∃ rel, relateMultipolygonToPolygon egg slab = .ok rel ∧ ShapedRel egg.locate slab.locate rel) ∧
    (∃ rel, relatePolygonToPolygon yolk slab = .ok rel ∧ ShapedRel yolk.locate slab.locate rel) :=
  ⟨C54_relate_multipolygon_multipolygon egg_valid tiles_valid egg_oriented tiles_oriented egg_nested tiles_nested,
    C54_relate_polygon_multipolygon slab_valid egg_valid (by decide +kernel) egg_oriented egg_nested,
    C54_relate_multipolygon_polygon egg_valid slab_valid egg_oriented (by decide +kernel) egg_nested,
    C54_relate_polygon_polygon yolk_valid slab_valid (by decide +kernel) (by decide +kernel)⟩

example : relateMultipolygonToMultipolygon egg tiles = .ok .enclosed ∧
    relatePolygonToMultipolygon slab egg = .ok .overlap ∧
    relatePolygonToMultipolygon yolk egg = .ok .component ∧
    relateMultipolygonToPolygon egg yolk = .ok .composite ∧
    relatePolygonToPolygon yolk slab = .ok .enclosed ∧
    relatePolygonToPolygon slab yolk = .ok .encloses ∧
    relatePolygonToPolygon frame slab = .ok .disjoint ∧
    relatePolygonToPolygon slab slab = .ok .equal ∧
    relatePolygonToPolygon slab ⟨rectangle 3 3 4 4, []⟩ = .ok .cover ∧
    relatePolygonToPolygon ⟨rectangle 3 3 4 4, []⟩ slab = .ok .within ∧
    relatePolygonToPolygon slab ⟨rectangle 5 1 6 3, []⟩ = .ok .touch := by decide +kernel

/-! ### Findings -/

/-- Finding: `relate_to` depends on the order in which the vertices are listed, although `==` and the other
operations do not.  A square with clockwise border is `==` to the same square with counterclockwise border, but the
relation between them is reported TOUCH; for a neighbour with a common side and a clockwise border it is reported
OVERLAP.  None of them is correct. -/
theorem C54_orientation :
    (⟨rectangle 0 0 4 4, []⟩ : Polygon).eqB ⟨rectangle' 0 0 4 4, []⟩ = true ∧
    ValidPolygon ⟨rectangle 0 0 4 4, []⟩ ∧ ValidPolygon ⟨rectangle' 0 0 4 4, []⟩ ∧ ValidPolygon ⟨rectangle' 4 0 6 4, []⟩ ∧
    relatePolygonToPolygon ⟨rectangle 0 0 4 4, []⟩ ⟨rectangle' 0 0 4 4, []⟩ = .ok .touch ∧
    ¬ ShapedRel (Polygon.locate ⟨rectangle 0 0 4 4, []⟩) (Polygon.locate ⟨rectangle' 0 0 4 4, []⟩) .touch ∧
    relatePolygonToPolygon ⟨rectangle 0 0 4 4, []⟩ ⟨rectangle' 4 0 6 4, []⟩ = .ok .overlap ∧
    ¬ ShapedRel (Polygon.locate ⟨rectangle 0 0 4 4, []⟩) (Polygon.locate ⟨rectangle' 4 0 6 4, []⟩) .overlap := by
  refine ⟨by decide +kernel, valid_of_validB (by decide +kernel), valid_of_validB (by decide +kernel),
    valid_of_validB (by decide +kernel), by decide +kernel, fun h => ?_, by decide +kernel, fun h => ?_⟩
  · have : (⟨2, 2⟩ : Point) ∈ inner (Polygon.locate ⟨rectangle 0 0 4 4, []⟩) ∩ inner (Polygon.locate ⟨rectangle' 0 0 4 4, []⟩) :=
      ⟨by show _ = _; decide +kernel, by show _ = _; decide +kernel⟩
    rw [h.2.1] at this
    exact this
  · obtain ⟨z, a, b⟩ := h.1
    have a := (interior_box (valid_of_validB (by decide +kernel)) a).2.1
    have b := (interior_box (valid_of_validB (by decide +kernel)) b).1
    have ea : (⟨rectangle 0 0 4 4, []⟩ : Polygon).boundingBox.maxX = 4 := by decide +kernel
    have eb : (⟨rectangle' 4 0 6 4, []⟩ : Polygon).boundingBox.minX = 4 := by decide +kernel
    rw [ea] at a
    rw [eb] at b
    linarith

end Rene
