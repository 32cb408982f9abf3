import Verif.Spec.Shapes
import Verif.Lemmas.Seidel.Rep
import Verif.Lemmas.Seidel.Indep

/-! Edges of polygons. -/

namespace Rene.Seidel
open Rene Spec Sweep

theorem block_mid (pre vs post : List Point) : Block (pre ++ (vs ++ post)) pre.length vs := by
  intro j hj
  refine ⟨by simp; omega, ?_⟩
  unfold pt
  rw [List.getD_append_right _ _ _ _ (by omega), show pre.length + j - pre.length = j by omega,
    List.getD_append _ _ _ _ hj, List.getD_eq_getElem _ _ hj]

theorem rep_holes : ∀ (holes : List Contour) (pre : List Point), (∀ c ∈ holes, c.vertices ≠ []) →
    (∀ s ∈ holes.flatMap Contour.segments, s.start ≠ s.end) →
    List.Forall₂ (Rep (pre ++ holes.flatMap Contour.vertices)) (holesEdges pre.length holes)
      (holes.flatMap Contour.segments)
  | [], pre, _, _ => List.Forall₂.nil
  | c :: holes, pre, h1, h2 => by
    unfold holesEdges
    rw [List.flatMap_cons, List.flatMap_cons]
    rw [List.flatMap_cons] at h2
    refine List.rel_append (rep_contour (block_mid _ _ _) (h1 c (by simp)) fun s hs => h2 s (List.mem_append_left _ hs)) ?_
    have := rep_holes holes (pre ++ c.vertices) (fun d hd => h1 d (List.mem_cons_of_mem _ hd))
      (fun s hs => h2 s (List.mem_append_right _ hs))
    rw [List.length_append, List.append_assoc] at this
    exact this

theorem own_holes : ∀ (holes : List Contour) (k i : ℕ), k ≤ i → i < k + (holes.flatMap Contour.vertices).length →
    ∃ e ∈ holesEdges k holes, i = e.left ∨ i = e.right
  | [], k, i, h1, h2 => by simp at h2; omega
  | c :: holes, k, i, h1, h2 => by
    rw [List.flatMap_cons, List.length_append] at h2
    unfold holesEdges
    by_cases h : i < k + c.vertices.length
    · obtain ⟨e, he, w⟩ := own_contour (c := c) (o := .clockwise) (k := k) (j := i - k) (by omega)
      rw [show k + (i - k) = i by omega] at w
      exact ⟨e, List.mem_append_left _ he, w⟩
    · obtain ⟨e, he, w⟩ := own_holes holes (k + c.vertices.length) i (by omega) (by omega)
      exact ⟨e, List.mem_append_right _ he, w⟩

theorem rep_polygon {p : Polygon} (h1 : ∀ c ∈ polygonContours p, c.vertices ≠ [])
    (h2 : ∀ s ∈ (polygonContours p).flatMap Contour.segments, s.start ≠ s.end) :
    List.Forall₂ (Rep (p.border.vertices ++ p.holes.flatMap Contour.vertices))
      (contourEdges p.border .counterclockwise 0 ++ holesEdges p.border.vertices.length p.holes)
      ((polygonContours p).flatMap Contour.segments) := by
  unfold polygonContours at *
  rw [List.flatMap_cons] at *
  refine List.rel_append (rep_contour (block_mid [] _ _) (h1 _ (by simp)) fun s hs => h2 s (List.mem_append_left _ hs)) ?_
  exact rep_holes p.holes p.border.vertices (fun c hc => h1 c (List.mem_cons_of_mem _ hc))
    (fun s hs => h2 s (List.mem_append_right _ hs))

theorem own_polygon (p : Polygon) : ∀ i < (p.border.vertices ++ p.holes.flatMap Contour.vertices).length,
    ∃ e ∈ contourEdges p.border .counterclockwise 0 ++ holesEdges p.border.vertices.length p.holes,
      i = e.left ∨ i = e.right := by
  intro i hi
  rw [List.length_append] at hi
  by_cases h : i < p.border.vertices.length
  · obtain ⟨e, he, w⟩ := own_contour (c := p.border) (o := .counterclockwise) (k := 0) h
    rw [Nat.zero_add] at w
    exact ⟨e, List.mem_append_left _ he, w⟩
  · obtain ⟨e, he, w⟩ := own_holes p.holes p.border.vertices.length i (by omega) (by omega)
    exact ⟨e, List.mem_append_right _ he, w⟩

end Rene.Seidel
