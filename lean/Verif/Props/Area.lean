import Verif.Lemmas.Area
import Verif.Props.MixedExamples

/-! C25: the orientation of a simple contour is the sign of its area. -/

namespace Rene
open Spec Sweep

theorem doubledArea_eq (vs : List Point) : doubledArea vs =
    ((toContourSegments vs).map fun s => s.start.x * s.end.y - s.end.x * s.start.y).sum := by
  unfold doubledArea
  have e : vs.rotate 1 = (toContourSegments vs).map Segment.end := by
    cases vs with
    | nil => rfl
    | cons v vs => rw [contour_ends, List.rotate_cons_succ]; simp
  rw [e]
  have k : ∀ us : List Point, us = (toContourSegments vs).map Segment.start →
      List.zipWith (fun a b => a.x * b.y - b.x * a.y) us ((toContourSegments vs).map Segment.end) =
      (toContourSegments vs).map fun s => s.start.x * s.end.y - s.end.x * s.start.y := by
    rintro us rfl
    rw [List.zipWith_map_left, List.zipWith_map_right, List.zipWith_self]
  rw [k vs (contour_starts vs).symm]

/-- C25: the orientation of a simple contour is the sign of its signed area (which is not zero). -/
theorem C25_orientation_area (c : Contour) (hs : SimpleContour c) :
    (c.orientation = .counterclockwise ↔ 0 < doubledArea c.vertices) ∧
    (c.orientation = .clockwise ↔ doubledArea c.vertices < 0) ∧ doubledArea c.vertices ≠ 0 := by
  obtain ⟨vs⟩ := c
  obtain ⟨r1, r2⟩ := area_sign hs.1 hs.2.1 hs.2.2
  have nc := simple_not_collinear hs
  rw [← doubledArea_eq] at r1 r2
  simp only at r1 r2
  show (_ ↔ 0 < doubledArea vs) ∧ (_ ↔ doubledArea vs < 0) ∧ doubledArea vs ≠ 0
  generalize (⟨vs⟩ : Contour).orientation = o at *
  cases o with
  | collinear => exact absurd rfl nc
  | counterclockwise =>
    have := r1 rfl
    exact ⟨by simpa using this, ⟨fun h => (by cases h), fun h => by linarith⟩, by linarith⟩
  | clockwise =>
    have := r2 rfl
    exact ⟨⟨fun h => (by cases h), fun h => by linarith⟩, by simpa using this, by linarith⟩

/-- A non-convex contour, clockwise. -/
example : SimpleContour ⟨[⟨0, 0⟩, ⟨0, 4⟩, ⟨1, 1⟩, ⟨4, 0⟩]⟩ ∧ doubledArea [⟨0, 0⟩, ⟨0, 4⟩, ⟨1, 1⟩, ⟨4, 0⟩] = -8 :=
  ⟨simple_of_simpleB (by decide +kernel), by decide +kernel⟩

end Rene
