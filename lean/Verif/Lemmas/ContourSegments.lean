import Verif.Lemmas.BoundingBox
import Verif.Model.SegmentEq
import Mathlib.Data.List.Rotate

/-! The edges of a rotated or reversed closed chain. -/

namespace Rene
open Spec

theorem consecutive_append (l : List Point) (a b : Point) :
    consecutive (l ++ [a, b]) = consecutive (l ++ [a]) ++ [⟨a, b⟩] := by
  induction l with
  | nil => simp [consecutive]
  | cons x l ih =>
    cases l with
    | nil => simp [consecutive]
    | cons y l =>
      simp only [List.cons_append, consecutive] at *
      rw [ih]

theorem toContourSegments_eq (v : Point) (l : List Point) :
    toContourSegments (v :: l) = consecutive (v :: l ++ [v]) := by
  rw [toContourSegments]
  rcases List.eq_nil_or_concat' l with rfl | ⟨l', z, rfl⟩
  · simp [consecutive]
  · have : v :: (l' ++ [z]) ++ [v] = (v :: l') ++ [z, v] := by simp
    rw [this, consecutive_append]
    simp

theorem toContourSegments_rotate1 (v : Point) (l : List Point) :
    (toContourSegments (l ++ [v])).Perm (toContourSegments (v :: l)) := by
  cases l with
  | nil => simp
  | cons b l =>
    rw [toContourSegments_eq]
    rw [List.cons_append, toContourSegments_eq]
    have e : b :: (l ++ [v]) ++ [b] = (b :: l) ++ [v, b] := by simp
    rw [e, consecutive_append]
    show (consecutive (b :: l ++ [v]) ++ [(⟨v, b⟩ : Segment)]).Perm ([(⟨v, b⟩ : Segment)] ++ consecutive (b :: (l ++ [v])))
    exact List.perm_append_comm

theorem toContourSegments_rotated {l r : List Point} (h : l ~r r) :
    (toContourSegments l).Perm (toContourSegments r) := by
  obtain ⟨n, rfl⟩ := h
  induction n generalizing l with
  | zero => simp
  | succ n ih =>
    cases l with
    | nil => simp
    | cons v l =>
      rw [List.rotate_cons_succ]
      exact (toContourSegments_rotate1 v l).symm.trans ih

theorem consecutive_reverse (l : List Point) :
    consecutive l.reverse = ((consecutive l).map Segment.reverse).reverse := by
  induction l with
  | nil => rfl
  | cons a l ih =>
    cases l with
    | nil => rfl
    | cons b l =>
      rw [List.reverse_cons, List.reverse_cons, List.append_assoc]
      show consecutive (l.reverse ++ [b, a]) = _
      rw [consecutive_append, ← List.reverse_cons, ih]
      simp [consecutive, Segment.reverse]

theorem toContourSegments_reverse (l : List Point) :
    (toContourSegments l.reverse).Perm ((toContourSegments l).map Segment.reverse) := by
  cases l with
  | nil => simp [toContourSegments]
  | cons v l =>
    have h1 : (v :: l).reverse ~r (v :: l.reverse) := by
      rw [List.reverse_cons]
      exact List.IsRotated.symm ⟨1, by simp⟩
    refine (toContourSegments_rotated h1).trans ?_
    rw [toContourSegments_eq, toContourSegments_eq]
    have e : v :: l.reverse ++ [v] = (v :: l ++ [v]).reverse := by simp
    rw [e, consecutive_reverse]
    exact List.reverse_perm _

end Rene
