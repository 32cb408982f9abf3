import Verif.Model.Shaped
import Verif.Props.MixedExamples

/-! # C52: a hole assigned to a wrong polygon -/

namespace Rene
open Spec Rene.Sweep

/-- A triangle. -/
def Spec.wedge : Polygon := ⟨⟨[⟨0, 10⟩, ⟨10, 0⟩, ⟨10, 10⟩]⟩, []⟩

/-- A hook which enters the triangle through its hypotenuse and ends with a spike at the point `(5, 5)` of the
hypotenuse. -/
def Spec.hook : Polygon := ⟨⟨[⟨5, 5⟩, ⟨9, 8⟩, ⟨1, 8⟩, ⟨1, 7⟩, ⟨7, 7⟩]⟩, []⟩

/-- A thin triangle, which touches the hypotenuse at the same point. -/
def Spec.thorn : Polygon := ⟨⟨[⟨5, 5⟩, ⟨9, 3⟩, ⟨9, 4⟩]⟩, []⟩

theorem not_interior_of_ray {c : Contour} {q : Point} (h : rayParity q c.segments = false) :
    locatePointInRegion c q ≠ .interior := by
  have k := locateInEdges_spec q c.segments false
  unfold locatePointInRegion
  by_cases m : q ∈ segsPts c.segments
  · rw [k.1 m]; simp
  · rw [k.2 m, h]; simp

theorem hook_level {q : Point} (h : q.y = 5) : locatePointInRegion hook.border q ≠ .interior := by
  by_cases hx : q.x = 5
  · have : q = ⟨5, 5⟩ := by cases q; simp_all
    rw [this]
    decide +kernel
  apply not_interior_of_ray
  have e1 : orient ⟨5, 5⟩ ⟨9, 8⟩ q = .counterclockwise ↔ q.x < 5 := by
    rw [orient_ccw]; unfold cr; simp only [h]; constructor <;> intro <;> linarith
  have e2 : orient ⟨7, 7⟩ ⟨5, 5⟩ q = .counterclockwise ↔ ¬ q.x < 5 := by
    rw [orient_ccw, not_lt]; unfold cr; simp only [h]
    constructor
    · intro; linarith
    · intro k
      have := lt_of_le_of_ne k (Ne.symm hx)
      linarith
  show rayParity q [⟨⟨5, 5⟩, ⟨9, 8⟩⟩, ⟨⟨9, 8⟩, ⟨1, 8⟩⟩, ⟨⟨1, 8⟩, ⟨1, 7⟩⟩, ⟨⟨1, 7⟩, ⟨7, 7⟩⟩, ⟨⟨7, 7⟩, ⟨5, 5⟩⟩] = false
  by_cases k : q.x < 5 <;> norm_num [rayParity, crossesRay, h, e1, e2, k]

theorem thorn_level {q : Point} (h : q.y = 5) : locatePointInRegion thorn.border q ≠ .interior := by
  apply not_interior_of_ray
  show rayParity q [⟨⟨5, 5⟩, ⟨9, 3⟩⟩, ⟨⟨9, 3⟩, ⟨9, 4⟩⟩, ⟨⟨9, 4⟩, ⟨5, 5⟩⟩] = false
  norm_num [rayParity, crossesRay, h]

theorem wedge_valid : ValidPolygon wedge := valid_of_validB (by decide +kernel)
theorem hook_valid : ValidPolygon hook := valid_of_validB (by decide +kernel)
theorem thorn_valid : ValidPolygon thorn := valid_of_validB (by decide +kernel)

theorem locate_border {p : Polygon} {q : Point} (h : p.holes = []) : p.locate q = locatePointInRegion p.border q := by
  unfold Polygon.locate
  rw [h]
  cases locatePointInRegion p.border q <;> rfl

theorem hook_box {q : Point} (h : hook.locate q ≠ .exterior) : 5 ≤ q.y := by
  have := (mem_boxPts.mp (validPolygon_box hook_valid h)).2.2.1
  exact this

theorem thorn_box {q : Point} (h : thorn.locate q ≠ .exterior) : q.y ≤ 5 := by
  have := (mem_boxPts.mp (validPolygon_box thorn_valid h)).2.2.2
  exact this

theorem hook_thorn_valid : ValidPolygons [hook, thorn] := by
  refine ⟨?_, ?_, ?_⟩
  · intro p hp
    rcases List.mem_cons.mp hp with rfl | hp
    · exact hook_valid
    · rw [List.mem_singleton.mp hp]; exact thorn_valid
  · exact noOverlap_of_empty (by decide +kernel)
  · refine List.pairwise_cons.mpr ⟨?_, List.pairwise_singleton _ _⟩
    intro r hr q
    rw [List.mem_singleton.mp hr]
    constructor
    · rintro ⟨h1, h2⟩
      have := hook_box (q := q) (by rw [h1]; simp)
      have := thorn_box h2
      rw [locate_border rfl] at h1
      exact hook_level (by linarith) h1
    · rintro ⟨h1, h2⟩
      have := thorn_box (q := q) (by rw [h1]; simp)
      have := hook_box h2
      rw [locate_border rfl] at h1
      exact thorn_level (by linarith) h1

/-- C52 (finding, the negation of the property without further hypotheses): the triangle minus the multipolygon of
the hook and the thorn, all of them valid.  The thorn becomes a hole of the small polygon next to it, in the border of
which it is not, instead of the big one: the point `(8, 19/5)`, which is inside of the subtrahend, is inside of the
result. -/
theorem C52_hole_in_wrong_polygon :
    ValidPolygon wedge ∧ ValidPolygons [hook, thorn] ∧
    subtractMultipolygonFromPolygon wedge ⟨[hook, thorn]⟩ = .ok (.multipolygon ⟨[
      ⟨⟨[⟨0, 10⟩, ⟨2, 8⟩, ⟨9, 8⟩, ⟨5, 5⟩, ⟨10, 0⟩, ⟨10, 10⟩]⟩, []⟩,
      ⟨⟨[⟨3, 7⟩, ⟨5, 5⟩, ⟨7, 7⟩]⟩, [⟨[⟨5, 5⟩, ⟨9, 4⟩, ⟨9, 3⟩]⟩]⟩]⟩) ∧
    locateInPolygons ⟨8, 19 / 5⟩ [hook, thorn] = .interior ∧
    locateInPolygons ⟨8, 19 / 5⟩ [
      ⟨⟨[⟨0, 10⟩, ⟨2, 8⟩, ⟨9, 8⟩, ⟨5, 5⟩, ⟨10, 0⟩, ⟨10, 10⟩]⟩, []⟩,
      ⟨⟨[⟨3, 7⟩, ⟨5, 5⟩, ⟨7, 7⟩]⟩, [⟨[⟨5, 5⟩, ⟨9, 4⟩, ⟨9, 3⟩]⟩]⟩] = .interior :=
  ⟨wedge_valid, hook_thorn_valid, by decide +kernel, by decide +kernel, by decide +kernel⟩

end Rene
