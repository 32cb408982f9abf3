import Verif.Model.Helpers
import Verif.Lemmas.ContourSegments
import Verif.Lemmas.Locate
import Verif.Props.Contours

/-! # C40: dropping collinear vertices -/

namespace Rene
open Spec

/-- Neighbours of the polyline differ, and wherever it does not turn it goes straight on. -/
def Spec.GoesOn : List Point → Prop
  | a :: b :: c :: rest => (a ≠ b ∧ b ≠ c ∧ (area2 a b c = 0 → b ∈ seg a c)) ∧ GoesOn (b :: c :: rest)
  | _ => True

/-- The polyline turns at each of its inner vertices. -/
def Spec.Turns : List Point → Prop
  | a :: b :: c :: rest => area2 a b c ≠ 0 ∧ Turns (b :: c :: rest)
  | _ => True

theorem mem_seg_trans {l u v w : Point} (h1 : u ∈ seg l v) (huv : u ≠ v) (h2 : v ∈ seg u w)
    (hc : cr l v w = 0) : v ∈ seg l w := by
  rw [mem_seg_iff] at *
  refine ⟨by rw [cr_swap23]; linarith, ?_⟩
  rcases h1.2 with ⟨a, b⟩ | ⟨a, b⟩ <;> rcases h2.2 with ⟨c, d⟩ | ⟨c, d⟩
  · exact Or.inl ⟨a.trans b, d⟩
  · exact absurd (le_antisymm b d) huv
  · exact absurd (le_antisymm c a) huv
  · exact Or.inr ⟨c, a.trans b⟩

theorem shrinkLoop_pts (f : Point) (rest : List Point) : ∀ (last u v : Point), u ∈ seg last v → u ≠ v →
    GoesOn (u :: v :: rest ++ [f]) →
    segsPts (consecutive (last :: shrinkLoop f last (v :: rest) ++ [f])) =
      seg last v ∪ segsPts (consecutive (v :: rest ++ [f])) := by
  have cut : ∀ {last u v w : Point}, u ∈ seg last v → u ≠ v → (area2 u v w = 0 → v ∈ seg u w) →
      cr last v w = 0 → v ∈ seg last w := by
    intro last u v w hu huv hg hc
    refine mem_seg_trans hu huv (hg ?_) hc
    obtain ⟨t, -, -, rfl⟩ := hu
    rw [← cr_eq_area2, ← cr_rot, cr_lerp, cr_self1, cr_rot, hc]; ring
  induction rest with
  | nil =>
    intro last u v hu huv hg
    simp only [shrinkLoop]
    by_cases hc : cr last v f = 0
    · rw [if_neg (by rw [not_not, orient_collinear]; exact hc)]
      have := cut hu huv hg.1.2.2 hc
      simp only [List.cons_append, List.nil_append, consecutive, segsPts_cons, segsPts_nil, Set.union_empty]
      exact seg_split this
    · rw [if_pos (by rw [ne_eq, orient_collinear]; exact hc)]
      simp only [List.cons_append, List.nil_append, consecutive, segsPts_cons, segsPts_nil, Set.union_empty]
      rfl
  | cons w rest ih =>
    intro last u v hu huv hg
    rw [shrinkLoop]
    by_cases hc : cr last v w = 0
    · rw [if_neg (by rw [not_not, orient_collinear]; exact hc)]
      have hm := cut hu huv hg.1.2.2 hc
      rw [ih last v w hm hg.1.2.1 hg.2, seg_split hm, Set.union_assoc]
      simp only [List.cons_append, consecutive, segsPts_cons]
      rfl
    · rw [if_pos (by rw [ne_eq, orient_collinear]; exact hc)]
      have := ih v v w (start_mem_seg v w) hg.1.2.1 hg.2
      simp only [List.cons_append, consecutive, segsPts_cons] at this ⊢
      rw [this]
      rfl

theorem shrinkLoop_turns (f : Point) (rest : List Point) : ∀ (last u v : Point), u ∈ seg last v → u ≠ v →
    GoesOn (u :: v :: rest ++ [f]) →
    ∃ h t, shrinkLoop f last (v :: rest) ++ [f] = h :: t ∧ v ∈ seg last h ∧
      Turns (last :: shrinkLoop f last (v :: rest) ++ [f]) := by
  have cut : ∀ {last u v w : Point}, u ∈ seg last v → u ≠ v → (area2 u v w = 0 → v ∈ seg u w) →
      cr last v w = 0 → v ∈ seg last w := by
    intro last u v w hu huv hg hc
    refine mem_seg_trans hu huv (hg ?_) hc
    obtain ⟨t, -, -, rfl⟩ := hu
    rw [← cr_eq_area2, ← cr_rot, cr_lerp, cr_self1, cr_rot, hc]; ring
  induction rest with
  | nil =>
    intro last u v hu huv hg
    simp only [shrinkLoop]
    by_cases hc : cr last v f = 0
    · rw [if_neg (by rw [not_not, orient_collinear]; exact hc)]
      exact ⟨f, [], rfl, cut hu huv hg.1.2.2 hc, trivial⟩
    · rw [if_pos (by rw [ne_eq, orient_collinear]; exact hc)]
      exact ⟨v, [f], rfl, end_mem_seg _ _, by rwa [← cr_eq_area2], trivial⟩
  | cons w rest ih =>
    intro last u v hu huv hg
    rw [shrinkLoop]
    by_cases hc : cr last v w = 0
    · rw [if_neg (by rw [not_not, orient_collinear]; exact hc)]
      have hm := cut hu huv hg.1.2.2 hc
      obtain ⟨h, t, e, hw, ht⟩ := ih last v w hm hg.1.2.1 hg.2
      refine ⟨h, t, e, ?_, ht⟩
      exact lerp_mem_seg (start_mem_seg _ _) hw hm
    · rw [if_pos (by rw [ne_eq, orient_collinear]; exact hc)]
      obtain ⟨h, t, e, hw, ht⟩ := ih v v w (start_mem_seg v w) hg.1.2.1 hg.2
      refine ⟨v, h :: t, by rw [List.cons_append, e], end_mem_seg _ _, ?_⟩
      rw [List.cons_append, e] at ht
      rw [List.cons_append, List.cons_append, e]
      refine ⟨?_, ht⟩
      rw [← cr_eq_area2]
      obtain ⟨s, -, -, rfl⟩ := hw
      rw [cr_lerp, cr_self2] at hc
      intro h0
      rw [h0] at hc; simp at hc

theorem shrinkLoop_sublist (f : Point) (rest : List Point) : ∀ last, (shrinkLoop f last rest).Sublist rest := by
  induction rest with
  | nil => intro; exact List.Sublist.refl _
  | cons v rest ih =>
    intro last
    cases rest with
    | nil => simp only [shrinkLoop]; split <;> simp
    | cons w rest =>
      rw [shrinkLoop]; split
      · exact (ih v).cons_cons v
      · exact (ih last).cons v

/-- C40: dropping collinear vertices gives a subsequence of the vertices starting with the same one;
if the border goes straight on wherever it does not turn, its points stay the same and every kept
vertex but the first is a turn. -/
theorem C40_shrink_collinear (v : Point) (vs : List Point) (hne : vs ≠ []) (h : GoesOn (v :: vs ++ [v])) :
    (∃ rest, shrinkCollinearVertices (v :: vs) = v :: rest ∧ rest.Sublist vs) ∧
    segsPts (toContourSegments (shrinkCollinearVertices (v :: vs))) = segsPts (toContourSegments (v :: vs)) ∧
    Turns (shrinkCollinearVertices (v :: vs) ++ [v]) := by
  refine ⟨⟨_, rfl, shrinkLoop_sublist _ _ _⟩, ?_, ?_⟩
  · rcases vs with _ | ⟨w, ws⟩
    · exact absurd rfl hne
    · simp only [shrinkCollinearVertices]
      rw [toContourSegments_eq, toContourSegments_eq]
      have hvw : v ≠ w := by
        rcases ws with _ | ⟨x, ws⟩
        · exact h.1.1
        · exact h.1.1
      rw [shrinkLoop_pts v ws v v w (start_mem_seg _ _) hvw h]
      simp only [List.cons_append, consecutive, segsPts_cons]
      rfl
  · rcases vs with _ | ⟨w, ws⟩
    · exact absurd rfl hne
    · have hvw : v ≠ w := by
        rcases ws with _ | ⟨x, ws⟩
        · exact h.1.1
        · exact h.1.1
      obtain ⟨_, _, _, _, ht⟩ := shrinkLoop_turns v ws v v w (start_mem_seg _ _) hvw h
      exact ht

/-- C40: the first vertex is kept even where the border does not turn: the result may still be
degenerate there. -/
theorem C40_first_vertex_kept :
    shrinkCollinearVertices [⟨1, 0⟩, ⟨2, 0⟩, ⟨0, 2⟩, ⟨0, 0⟩] = [⟨1, 0⟩, ⟨2, 0⟩, ⟨0, 2⟩, ⟨0, 0⟩] ∧
    areContourVerticesNonDegenerate (shrinkCollinearVertices [⟨1, 0⟩, ⟨2, 0⟩, ⟨0, 2⟩, ⟨0, 0⟩]) = false := by
  decide +kernel

example : shrinkCollinearVertices [⟨0, 0⟩, ⟨1, 0⟩, ⟨2, 0⟩, ⟨2, 2⟩, ⟨1, 1⟩] = [⟨0, 0⟩, ⟨2, 0⟩, ⟨2, 2⟩] := by
  decide +kernel

example : GoesOn [⟨0, 0⟩, ⟨1, 0⟩, ⟨2, 0⟩, ⟨2, 2⟩, ⟨1, 1⟩, ⟨0, 0⟩] := by
  refine ⟨⟨by decide +kernel, by decide +kernel, fun _ => ⟨1/2, by norm_num, by norm_num, by decide +kernel⟩⟩,
    ⟨by decide +kernel, by decide +kernel, fun h => absurd h (by decide +kernel)⟩,
    ⟨by decide +kernel, by decide +kernel, fun h => absurd h (by decide +kernel)⟩,
    ⟨by decide +kernel, by decide +kernel, fun _ => ⟨1/2, by norm_num, by norm_num, by decide +kernel⟩⟩, trivial⟩

end Rene
