import Verif.Lemmas.Seidel.General
import Verif.Props.Helpers

/-! # C39: point location in a trapezoidation -/

namespace Rene
open Seidel

/-- A trapezoidation which one of the two public constructors returns, for some input and some seed. -/
def Spec.BuiltTrapezoidation (T : Trapezoidation) : Prop :=
  (∃ m seed, fromMultisegment m seed = .ok T) ∨ ∃ p seed, fromPolygon p seed = .ok T

theorem Spec.BuiltTrapezoidation.ranked {T : Trapezoidation} (h : Spec.BuiltTrapezoidation T) : Ranked T.nodes := by
  rcases h with ⟨m, seed, h⟩ | ⟨p, seed, h⟩ <;> exact fromBox_ranked h

/-- C39: point location terminates: in a trapezoidation built from any multisegment or polygon whatsoever, with
any seed, every point is given a location. -/
theorem C39_locate_terminates (T : Trapezoidation) (h : Spec.BuiltTrapezoidation T) (p : Point) :
    ∃ l, T.locate p = some l := by
  obtain ⟨h0, rk, hr⟩ := h.ranked
  exact Option.isSome_iff_exists.mp
    (locateFrom_terminates T.edges T.endpoints p hr _ 0 h0 (by
      have := depthBound_le T.nodes rk 0; omega))

/-- C39: the height is defined, is less than the number of nodes, and no point location takes more steps than
the height. -/
theorem C39_height (T : Trapezoidation) (h : Spec.BuiltTrapezoidation T) :
    ∃ k, T.height = some k ∧ k < T.nodes.length ∧
      ∀ p, stepsFrom T.edges T.endpoints T.nodes p (T.nodes.length + 1) 0 ≤ k := by
  obtain ⟨h0, rk, hr⟩ := h.ranked
  obtain ⟨k, hk, hle⟩ := heightFrom_terminates hr (T.nodes.length + 1) 0 h0 (by
      have := depthBound_le T.nodes rk 0; omega)
  have := Ranked.depthBound_lt h0 hr 0
  exact ⟨k, hk, by omega, fun p => stepsFrom_le_height _ _ _ p _ _ _ hk⟩

/-- C39: no point is interior to a multisegment. -/
theorem C39_multisegment_has_no_interior (m : Multisegment) (seed : Nat) (T : Trapezoidation)
    (h : fromMultisegment m seed = .ok T) (p : Point) : T.locate p ≠ some .interior := by
  refine locateFrom_notInterior (fromBox_noInterior h ?_ ?_) _ _
  · intro x hx
    rw [(C29_permute_rearranges _ seed).mem_iff, List.mem_mapIdx] at hx
    obtain ⟨i, hi, rfl⟩ := hx
    unfold segmentEdge
    split <;> rfl
  · intro he
    have := (C29_permute_rearranges (m.segments.mapIdx segmentEdge) seed).length_eq
    rw [he] at this
    have h0 : m.segments = [] := by simpa using this.symm
    unfold fromMultisegment fromBox at h
    rw [h0] at h
    simp [List.flatMap, throw, throwThe, MonadExceptOf.throw, Except.bind, bind] at h

/-- A triangle. -/
def Spec.triangle : Polygon := ⟨⟨[⟨0, 0⟩, ⟨4, 0⟩, ⟨2, 3⟩]⟩, []⟩

/-- The location of a point in the trapezoidation of a polygon. -/
def Spec.locateInPolygon (p : Polygon) (seed : Nat) (q : Point) : Option (Option Location) :=
  ((fromPolygon p seed).toOption).map fun T => T.locate q

/-- The location of a point in the trapezoidation of a multisegment. -/
def Spec.locateInMultisegment (m : Multisegment) (seed : Nat) (q : Point) : Option (Option Location) :=
  ((fromMultisegment m seed).toOption).map fun T => T.locate q

/-- The arrangement of the edges for any seed is that for one of the first `n!` seeds. -/
theorem Spec.permute_seed {α : Type} (l : List α) (seed : Nat) :
    ∃ s < l.length.factorial, permute l s = permute l seed :=
  permute_surj (C29_permute_rearranges l seed)

/-- C44 (finding, the negation of the property): the trapezoidation of a triangle does not find its interior:
a point inside is reported as EXTERIOR by `Trapezoidation.locate` with every seed, and as INTERIOR by
`Polygon.locate`.  (The edge which closes the contour, from the last vertex to the first, is given the flag of
an edge from the first vertex to the last.) -/
theorem C44_triangle_interior_missed (seed : Nat) :
    Spec.locateInPolygon Spec.triangle seed ⟨1, 1 / 2⟩ = some (some .exterior) ∧
      Spec.triangle.locate ⟨1, 1 / 2⟩ = .interior := by
  refine ⟨?_, by decide +kernel⟩
  have h6 : ∀ s < 6, Spec.locateInPolygon Spec.triangle s ⟨1, 1 / 2⟩ = some (some .exterior) := by
    decide +kernel
  obtain ⟨s, hs, he⟩ := Spec.permute_seed (contourEdges Spec.triangle.border .counterclockwise 0 ++
    holesEdges Spec.triangle.border.vertices.length Spec.triangle.holes) seed
  have := h6 s hs
  unfold Spec.locateInPolygon fromPolygon at this ⊢
  rw [he] at this
  exact this

/-- Two segments, the second starting inside the first. -/
def Spec.tee : Multisegment := ⟨[⟨⟨0, 0⟩, ⟨4, 0⟩⟩, ⟨⟨2, 0⟩, ⟨3, -2⟩⟩]⟩

/-- The hypotheses of the theorems about C39 are met: both constructors succeed, e.g. here. -/
example : (fromMultisegment Spec.tee 1).toOption.map Trapezoidation.height = some (some 6) ∧
    (fromPolygon Spec.triangle 3).toOption.map (fun T => T.nodes.length) = some 14 := by
  decide +kernel

/-- C45 (finding, the negation of the property): the location of a point in the trapezoidation of a valid
multisegment, whose segments merely touch, depends on the seed, and is wrong for one of the seeds: the point is
on the first segment. -/
theorem C45_touching_segments_depend_on_seed :
    Spec.locateInMultisegment Spec.tee 0 ⟨5 / 2, 0⟩ = some (some .exterior) ∧
    Spec.locateInMultisegment Spec.tee 1 ⟨5 / 2, 0⟩ = some (some .boundary) ∧
    Spec.tee.locate ⟨5 / 2, 0⟩ = .boundary := by
  decide +kernel

end Rene
