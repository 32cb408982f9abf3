import Verif.Lemmas.ContourEq
import Verif.Props.Basics

/-! # C18-C20, C25: equality, hashing, orientation of contours and compound geometries -/

namespace Rene
open Spec

/-- The vertex sequence `l` is obtained from `r` by moving some first vertices to the end, possibly
after reversing the direction. -/
def Spec.SameCycle (l r : List Point) : Prop :=
  ∃ A B, (r = A ++ B ∧ (l = B ++ A ∨ l = (B ++ A).reverse))

theorem sameCycle_iff (l r : List Point) : SameCycle l r ↔ l ~r r ∨ l ~r r.reverse := by
  have key : ∀ x y : List Point, x ~r y ↔ ∃ A B, y = A ++ B ∧ x = B ++ A := by
    intro x y
    constructor
    · intro h
      obtain ⟨k, hk⟩ := h.symm
      refine ⟨y.take (k % y.length), y.drop (k % y.length), (List.take_append_drop _ _).symm, ?_⟩
      rw [← hk, List.rotate_eq_drop_append_take_mod]
    · rintro ⟨A, B, rfl, rfl⟩
      exact List.IsRotated.symm ⟨A.length, List.rotate_append_length_eq _ _⟩
  unfold SameCycle
  rw [key, ← List.reverse_reverse l, List.isRotated_reverse_iff, key]
  simp only [List.reverse_reverse]
  constructor
  · rintro ⟨A, B, e, h | h⟩
    · exact Or.inl ⟨A, B, e, h⟩
    · exact Or.inr ⟨A, B, e, by rw [h, List.reverse_reverse]⟩
  · rintro (⟨A, B, e, h⟩ | ⟨A, B, e, h⟩)
    · exact ⟨A, B, e, Or.inl h⟩
    · exact ⟨A, B, e, Or.inr (by rw [← h, List.reverse_reverse])⟩

theorem eqB_iff_rot {a b : Contour} (ha : a.vertices ≠ []) (hb : b.vertices.Nodup) :
    a.eqB b = true ↔ a.vertices ~r b.vertices ∨ a.vertices ~r b.vertices.reverse :=
  areRot_iff ha hb

/-- C18: contour equality is equality of the cyclic vertex sequences up to direction. -/
theorem C18_contour_eq (a b : Contour) (ha : a.vertices ≠ []) (hb : b.vertices.Nodup) :
    a.eqB b = true ↔ SameCycle a.vertices b.vertices := by
  rw [eqB_iff_rot ha hb, sameCycle_iff]

/-- C18: on contours with distinct vertices equality is an equivalence relation. -/
theorem C18_contour_eq_equivalence :
    Equivalence (fun a b : {c : Contour // c.vertices ≠ [] ∧ c.vertices.Nodup} => a.1.eqB b.1 = true) := by
  have h := fun a b : {c : Contour // c.vertices ≠ [] ∧ c.vertices.Nodup} =>
    eqB_iff_rot (a := a.1) (b := b.1) a.2.1 b.2.2
  refine ⟨fun a => ?_, fun {a b} k => ?_, fun {a b c} k k' => ?_⟩
  · rw [h]; exact Or.inl (List.IsRotated.refl _)
  · rw [h] at *
    rcases k with k | k
    · exact Or.inl k.symm
    · refine Or.inr ?_
      have := k.reverse
      rw [List.reverse_reverse] at this
      exact this.symm
  · rw [h] at *
    rcases k with k | k <;> rcases k' with k' | k'
    · exact Or.inl (k.trans k')
    · exact Or.inr (k.trans k')
    · exact Or.inr (k.trans k'.reverse)
    · refine Or.inl ?_
      have := k'.reverse
      rw [List.reverse_reverse] at this
      exact k.trans this

example : (⟨[⟨0, 0⟩, ⟨4, 0⟩, ⟨4, 4⟩, ⟨0, 4⟩]⟩ : Contour).eqB ⟨[⟨4, 4⟩, ⟨4, 0⟩, ⟨0, 0⟩, ⟨0, 4⟩]⟩ = true ∧
    (⟨[⟨0, 0⟩, ⟨4, 0⟩, ⟨4, 4⟩, ⟨0, 4⟩]⟩ : Contour).eqB ⟨[⟨4, 4⟩, ⟨0, 0⟩, ⟨4, 0⟩, ⟨0, 4⟩]⟩ = false := by
  decide +kernel

/-- Two splits of the same cycle at the least vertex. -/
theorem split_rot {A B A' B' : List Point} {m m' : Point} (hn : (A' ++ m' :: B').Nodup)
    (hm : ∀ p ∈ A ++ m :: B, m ≤ p) (hm' : ∀ p ∈ A' ++ m' :: B', m' ≤ p)
    (h : A ++ m :: B ~r A' ++ m' :: B') : m = m' ∧ B ++ A = B' ++ A' := by
  have e : m = m' := le_antisymm (hm _ (h.mem_iff.mpr (by simp))) (hm' _ (h.mem_iff.mp (by simp)))
  subst e
  exact ⟨rfl, rotated_cons_eq ((rot_swap _ _ _).nodup_iff.mp hn)
      ((rot_swap m A B).symm.trans (h.trans (rot_swap m A' B')))⟩

/-- Two splits of reversed cycles at the least vertex. -/
theorem split_rev {A B A' B' : List Point} {m m' : Point} (hn : (A' ++ m' :: B').Nodup)
    (hm : ∀ p ∈ A ++ m :: B, m ≤ p) (hm' : ∀ p ∈ A' ++ m' :: B', m' ≤ p)
    (h : A ++ m :: B ~r (A' ++ m' :: B').reverse) : m = m' ∧ B ++ A = (B' ++ A').reverse := by
  have e2 : (A' ++ m' :: B').reverse = B'.reverse ++ m' :: A'.reverse := by simp
  rw [e2] at h
  rw [List.reverse_append]
  refine split_rot ?_ hm ?_ h
  · rw [← e2, List.nodup_reverse]; exact hn
  · intro p hp; rw [← e2, List.mem_reverse] at hp; exact hm' p hp

theorem tail_ne_nil {A B : List Point} {m : Point} (h : 3 ≤ (A ++ m :: B).length) : B ++ A ≠ [] := by
  intro e
  simp only [List.append_eq_nil_iff] at e
  simp [e.1, e.2] at h

/-- C19: for non-degenerate contours (three consecutive vertices are never collinear) with distinct
vertices, equal contours have equal hash keys, and the hash key determines the contour. -/
theorem C19_contour_hash (a b : Contour) (ha : 3 ≤ a.vertices.length) (hb : 3 ≤ b.vertices.length)
    (hna : a.vertices.Nodup) (hnb : b.vertices.Nodup)
    (hda : areContourVerticesNonDegenerate a.vertices = true)
    (hdb : areContourVerticesNonDegenerate b.vertices = true) :
    a.eqB b = true ↔ a.hashKey = b.hashKey := by
  have hane : a.vertices ≠ [] := by intro e; simp [e] at ha
  have hbne : b.vertices ≠ [] := by intro e; simp [e] at hb
  rw [eqB_iff_rot hane hnb]
  unfold Contour.hashKey
  obtain ⟨A, m, B, e, hi, hm⟩ := split_min hane
  obtain ⟨A', m', B', e', hi', hm'⟩ := split_min hbne
  rw [e] at hi hm ha hda hna ⊢
  rw [e'] at hi' hm' hb hdb hnb ⊢
  have t := turnAt_ne_collinear ha hda
  have t' := turnAt_ne_collinear hb hdb
  rw [contourHashKey_split hi (tail_ne_nil ha), contourHashKey_split hi' (tail_ne_nil hb)]
  have o := orient_swap13 ((B' ++ A').getLastD m') m' ((B' ++ A').headD m')
  have rev := turnAt_reverse (m := m') (C := B' ++ A')
  rw [List.cons.injEq]
  constructor
  · intro h
    rcases h with h | h
    · obtain ⟨rfl, hs⟩ := split_rot hnb hm hm' h
      exact ⟨rfl, by rw [hs]⟩
    · obtain ⟨rfl, hs⟩ := split_rev hnb hm hm' h
      refine ⟨rfl, ?_⟩
      rw [hs, rev]
      rcases ht : turnAt m (B' ++ A') with _ | _ | _
      · have : orient ((B' ++ A').headD m) m ((B' ++ A').getLastD m) = .counterclockwise := o.2.1.mpr ht
        rw [this]; simp
      · exact absurd ht t'
      · have : orient ((B' ++ A').headD m) m ((B' ++ A').getLastD m) = .clockwise := o.1.mpr ht
        rw [this]; simp
  · rintro ⟨rfl, h⟩
    have r1 := rot_swap m A B
    have r2 := rot_swap m A' B'
    have r3 : (m :: (B' ++ A').reverse) ~r (A' ++ m :: B').reverse := by
      have e2 : (A' ++ m :: B').reverse = B'.reverse ++ m :: A'.reverse := by simp
      rw [e2, List.reverse_append]
      exact (rot_swap m _ _).symm
    split_ifs at h with c1 c2 c2
    · left
      rw [List.reverse_inj] at h
      rw [h] at r1; exact r1.trans r2.symm
    · right
      have : B ++ A = (B' ++ A').reverse := by rw [← h, List.reverse_reverse]
      rw [this] at r1
      exact r1.trans r3
    · right
      rw [h] at r1
      exact r1.trans r3
    · left
      rw [h] at r1; exact r1.trans r2.symm

example : (areContourVerticesNonDegenerate [⟨0, 0⟩, ⟨4, 0⟩, ⟨4, 4⟩, ⟨0, 4⟩] = true) ∧
    (⟨[⟨0, 0⟩, ⟨4, 0⟩, ⟨4, 4⟩, ⟨0, 4⟩]⟩ : Contour).hashKey =
      (⟨[⟨4, 4⟩, ⟨4, 0⟩, ⟨0, 0⟩, ⟨0, 4⟩]⟩ : Contour).hashKey := by decide +kernel

/-- C19: the condition is needed. Two equal contours with distinct vertices, collinear at the least
vertex, have different hash keys (such contours are rejected by `is_valid`, but can be constructed). -/
theorem C19_degenerate_contour_hash_differs : ∃ a b : Contour, 3 ≤ a.vertices.length ∧
    a.vertices.Nodup ∧ b.vertices.Nodup ∧ a.eqB b = true ∧ a.hashKey ≠ b.hashKey := by
  refine ⟨⟨[⟨0, 0⟩, ⟨0, 2⟩, ⟨1, 1⟩, ⟨0, 1⟩]⟩, ⟨[⟨0, 1⟩, ⟨1, 1⟩, ⟨0, 2⟩, ⟨0, 0⟩]⟩, ?_⟩
  decide +kernel

/-! ### C25 -/

theorem orientation_split {A B : List Point} {m : Point} (hi : toArgMin (A ++ m :: B) = A.length)
    (hC : B ++ A ≠ []) : (⟨A ++ m :: B⟩ : Contour).orientation = turnAt m (B ++ A) := by
  unfold Contour.orientation
  simp only [hi]
  exact toContourOrientation_split hC

theorem orientation_split' {c : Contour} (h : 3 ≤ c.vertices.length) :
    ∃ A m B, c.vertices = A ++ m :: B ∧ (∀ p ∈ A ++ m :: B, m ≤ p) ∧ c.orientation = turnAt m (B ++ A) := by
  have hne : c.vertices ≠ [] := by intro e; simp [e] at h
  obtain ⟨A, m, B, e, hi, hm⟩ := split_min hne
  refine ⟨A, m, B, e, by rw [← e]; exact hm, ?_⟩
  rw [← orientation_split (by rw [← e]; exact hi) (tail_ne_nil (by rw [← e]; exact h)), ← e]

/-- C25: the orientation does not depend on the starting vertex and reverses with the direction. -/
theorem C25_orientation (a b : Contour) (ha : 3 ≤ a.vertices.length) (hn : b.vertices.Nodup) :
    (a.vertices ~r b.vertices → a.orientation = b.orientation) ∧
    (a.vertices ~r b.vertices.reverse →
      (a.orientation = .clockwise ↔ b.orientation = .counterclockwise) ∧
      (a.orientation = .counterclockwise ↔ b.orientation = .clockwise)) := by
  obtain ⟨A, m, B, e, hm, ea⟩ := orientation_split' ha
  constructor
  · intro h
    have hb : 3 ≤ b.vertices.length := by rw [← h.perm.length_eq]; exact ha
    obtain ⟨A', m', B', e', hm', eb⟩ := orientation_split' hb
    rw [e, e'] at h
    obtain ⟨rfl, hs⟩ := split_rot (by rw [← e']; exact hn) hm hm' h
    rw [ea, eb, hs]
  · intro h
    have hb : 3 ≤ b.vertices.length := by rw [← List.length_reverse, ← h.perm.length_eq]; exact ha
    obtain ⟨A', m', B', e', hm', eb⟩ := orientation_split' hb
    rw [e, e'] at h
    obtain ⟨rfl, hs⟩ := split_rev (by rw [← e']; exact hn) hm hm' h
    rw [ea, eb, hs, turnAt_reverse]
    have o := orient_swap13 ((B' ++ A').getLastD m) m ((B' ++ A').headD m)
    exact ⟨o.1, o.2.1⟩

/-- C25: a non-degenerate contour is never reported as collinear. -/
theorem C25_orientation_nondegenerate (a : Contour) (ha : 3 ≤ a.vertices.length)
    (hd : areContourVerticesNonDegenerate a.vertices = true) : a.orientation ≠ .collinear := by
  obtain ⟨A, m, B, e, hm, ea⟩ := orientation_split' ha
  rw [ea]; rw [e] at ha hd; exact turnAt_ne_collinear ha hd

/-- C25: for triangles the orientation is the sign of the signed area. -/
theorem C25_triangle_orientation (p q r : Point) : (⟨[p, q, r]⟩ : Contour).orientation = orient p q r := by
  have h3 : 3 ≤ (⟨[p, q, r]⟩ : Contour).vertices.length := by simp
  obtain ⟨A, m, B, e, hm, ea⟩ := orientation_split' h3
  rw [ea]
  obtain ⟨_, _, _, c1, c2, _⟩ := C26_orient p q r ⟨0, 0⟩
  simp only at e
  match A, e with
  | [], e => simp only [List.nil_append, List.cons.injEq] at e; obtain ⟨rfl, rfl⟩ := e; simpa [turnAt] using c2
  | [a], e =>
    simp only [List.cons_append, List.nil_append, List.cons.injEq] at e
    obtain ⟨rfl, rfl, rfl⟩ := e; simp [turnAt]
  | [a, b], e =>
    simp only [List.cons_append, List.nil_append, List.cons.injEq] at e
    obtain ⟨rfl, rfl, rfl, rfl⟩ := e; simpa [turnAt] using c1
  | a :: b :: c :: A, e => exfalso; simp at e

/-- C25: `to_oriented_segments` gives the closed chain of the same vertices, in the same cyclic order or
reversed, and traversed in the requested direction. -/
theorem C25_oriented_segments (vs : List Point) (h : 3 ≤ vs.length) (hn : vs.Nodup)
    (hd : areContourVerticesNonDegenerate vs = true) (t : Orientation) (ht : t ≠ .collinear) :
    ∃ ws : List Point, toOrientedSegments vs t = toContourSegments ws ∧ SameCycle ws vs ∧
      (⟨ws⟩ : Contour).orientation = t := by
  unfold toOrientedSegments
  by_cases hc : toContourOrientation vs (toArgMin vs) = t
  · rw [if_pos hc]
    exact ⟨vs, rfl, ⟨[], vs, rfl, Or.inl (by simp)⟩, hc⟩
  · rw [if_neg hc]
    have hrot : rotateSequence vs ~r vs.reverse := by
      cases vs with
      | nil => simp [rotateSequence]
      | cons a rest =>
        simp only [rotateSequence, List.reverse_cons]
        exact (rot_swap a rest.reverse []).symm
    refine ⟨rotateSequence vs, rfl, (sameCycle_iff _ _).mpr (Or.inr hrot), ?_⟩
    have hl : (rotateSequence vs).length = vs.length := by rw [hrot.perm.length_eq, List.length_reverse]
    have o := (C25_orientation ⟨rotateSequence vs⟩ ⟨vs⟩ (by simpa [hl] using h) hn).2 hrot
    have nd := C25_orientation_nondegenerate ⟨vs⟩ h hd
    have hc' : (⟨vs⟩ : Contour).orientation ≠ t := hc
    generalize (⟨vs⟩ : Contour).orientation = x at *
    cases x <;> cases t <;> simp_all

example : (⟨[⟨0, 0⟩, ⟨0, 4⟩, ⟨4, 4⟩, ⟨4, 0⟩]⟩ : Contour).orientation = .clockwise ∧
    toOrientedSegments [⟨0, 0⟩, ⟨0, 4⟩, ⟨4, 4⟩, ⟨4, 0⟩] .counterclockwise =
      [⟨⟨0, 0⟩, ⟨4, 0⟩⟩, ⟨⟨4, 0⟩, ⟨4, 4⟩⟩, ⟨⟨4, 4⟩, ⟨0, 4⟩⟩, ⟨⟨0, 4⟩, ⟨0, 0⟩⟩] := by decide +kernel

/-! ### C20 -/

theorem frozensetEq_iff {α : Type} (eq : α → α → Bool) (l m : List α) : frozensetEq eq l m = true ↔
    (∀ x ∈ l, ∃ y ∈ m, eq x y = true) ∧ (∀ y ∈ m, ∃ x ∈ l, eq y x = true) := by
  simp [frozensetEq]

theorem frozensetEq_key {α β : Type} [DecidableEq β] {eq : α → α → Bool} {key : α → β} {l m : List α}
    (h : ∀ x ∈ l ++ m, ∀ y ∈ l ++ m, eq x y = true ↔ key x = key y) :
    frozensetEq eq l m = true ↔ (l.map key).toFinset = (m.map key).toFinset := by
  rw [frozensetEq_iff, Finset.ext_iff]
  simp only [List.mem_toFinset, List.mem_map]
  constructor
  · rintro ⟨h1, h2⟩ k
    constructor
    · rintro ⟨x, hx, rfl⟩
      obtain ⟨y, hy, e⟩ := h1 x hx
      exact ⟨y, hy, ((h x (by simp [hx]) y (by simp [hy])).mp e).symm⟩
    · rintro ⟨x, hx, rfl⟩
      obtain ⟨y, hy, e⟩ := h2 x hx
      exact ⟨y, hy, ((h x (by simp [hx]) y (by simp [hy])).mp e).symm⟩
  · intro hk
    constructor
    · intro x hx
      obtain ⟨y, hy, e⟩ := (hk (key x)).mp ⟨x, hx, rfl⟩
      exact ⟨y, hy, (h x (by simp [hx]) y (by simp [hy])).mpr e.symm⟩
    · intro x hx
      obtain ⟨y, hy, e⟩ := (hk (key x)).mpr ⟨x, hx, rfl⟩
      exact ⟨y, hy, (h x (by simp [hx]) y (by simp [hy])).mpr e.symm⟩

/-- A contour as accepted by `is_valid` as far as vertices are concerned: at least three, distinct, no
three consecutive ones collinear. -/
def Spec.ProperContour (c : Contour) : Prop :=
  3 ≤ c.vertices.length ∧ c.vertices.Nodup ∧ areContourVerticesNonDegenerate c.vertices = true

/-- A polygon of proper contours. -/
def Spec.ProperPolygon (p : Polygon) : Prop := ProperContour p.border ∧ ∀ h ∈ p.holes, ProperContour h

/-- C20: multisegments are equal iff they have the same set of segments (as point sets), iff hash keys
are equal; reordering components or reversing segments changes nothing. -/
theorem C20_multisegment_eq (a b : Multisegment) :
    (a.eqB b = true ↔ (∀ s ∈ a.segments, ∃ t ∈ b.segments, segPts s = segPts t) ∧
      (∀ t ∈ b.segments, ∃ s ∈ a.segments, segPts t = segPts s)) ∧
    (a.eqB b = true ↔ a.hashKey = b.hashKey) ∧
    (a.segments.Perm b.segments → a.eqB b = true) := by
  have h1 : a.eqB b = true ↔ (∀ s ∈ a.segments, ∃ t ∈ b.segments, segPts s = segPts t) ∧
      (∀ t ∈ b.segments, ∃ s ∈ a.segments, segPts t = segPts s) := by
    unfold Multisegment.eqB
    rw [frozensetEq_iff]
    simp only [(C17_segment_eq _ _).1]
  have h2 : a.eqB b = true ↔ a.hashKey = b.hashKey :=
    frozensetEq_key (fun x _ y _ => (C17_segment_eq x y).2.2)
  refine ⟨h1, h2, fun hp => ?_⟩
  rw [h1]
  exact ⟨fun s hs => ⟨s, hp.mem_iff.mp hs, rfl⟩, fun s hs => ⟨s, hp.mem_iff.mpr hs, rfl⟩⟩

theorem C20_multisegment_eq_equivalence : Equivalence (fun a b : Multisegment => a.eqB b = true) := by
  refine ⟨fun a => ?_, fun {a b} h => ?_, fun {a b c} h h' => ?_⟩
  · rw [(C20_multisegment_eq _ _).2.1]
  · rw [(C20_multisegment_eq _ _).2.1] at *; exact h.symm
  · rw [(C20_multisegment_eq _ _).2.1] at *; exact h.trans h'

theorem contour_eq_key {a b : Contour} (ha : ProperContour a) (hb : ProperContour b) :
    a.eqB b = true ↔ a.hashKey = b.hashKey :=
  C19_contour_hash a b ha.1 hb.1 ha.2.1 hb.2.1 ha.2.2 hb.2.2

/-- C20: polygons of proper contours: equality is equality of the hash key together with the number of
holes; it is invariant under reordering the holes. -/
theorem C20_polygon_eq (a b : Polygon) (ha : ProperPolygon a) (hb : ProperPolygon b) :
    (a.eqB b = true ↔ a.holes.length = b.holes.length ∧ a.hashKey = b.hashKey) ∧
    (a.eqB b = true ↔ SameCycle a.border.vertices b.border.vertices ∧ a.holes.length = b.holes.length ∧
      (∀ h ∈ a.holes, ∃ k ∈ b.holes, SameCycle h.vertices k.vertices) ∧
      (∀ k ∈ b.holes, ∃ h ∈ a.holes, SameCycle k.vertices h.vertices)) ∧
    (a.border = b.border → a.holes.Perm b.holes → a.eqB b = true) := by
  have hh : ∀ c ∈ a.holes ++ b.holes, ProperContour c := by
    intro c hc
    rcases List.mem_append.mp hc with h | h
    exacts [ha.2 c h, hb.2 c h]
  have ne : ∀ {c : Contour}, ProperContour c → c.vertices ≠ [] := by
    intro c hc e; have := hc.1; simp [e] at this
  have k1 : a.eqB b = true ↔ a.holes.length = b.holes.length ∧ a.hashKey = b.hashKey := by
    unfold Polygon.eqB Polygon.hashKey
    rw [Bool.and_eq_true, Bool.and_eq_true, decide_eq_true_eq, contour_eq_key ha.1 hb.1,
      frozensetEq_key (key := Contour.hashKey) (fun x hx y hy => contour_eq_key (hh x hx) (hh y hy)),
      Prod.mk.injEq]
    tauto
  refine ⟨k1, ?_, ?_⟩
  · unfold Polygon.eqB
    rw [Bool.and_eq_true, Bool.and_eq_true, decide_eq_true_eq, C18_contour_eq _ _ (ne ha.1) hb.1.2.1,
      frozensetEq_iff, and_assoc]
    have : (∀ x ∈ a.holes, ∃ y ∈ b.holes, x.eqB y = true) ↔
        (∀ h ∈ a.holes, ∃ k ∈ b.holes, SameCycle h.vertices k.vertices) := by
      refine forall₂_congr fun x hx => exists_congr fun y => and_congr_right fun hy => ?_
      exact C18_contour_eq _ _ (ne (ha.2 x hx)) (hb.2 y hy).2.1
    rw [this]
    have : (∀ x ∈ b.holes, ∃ y ∈ a.holes, x.eqB y = true) ↔
        (∀ h ∈ b.holes, ∃ k ∈ a.holes, SameCycle h.vertices k.vertices) := by
      refine forall₂_congr fun x hx => exists_congr fun y => and_congr_right fun hy => ?_
      exact C18_contour_eq _ _ (ne (hb.2 x hx)) (ha.2 y hy).2.1
    rw [this]
  · intro e hp
    rw [k1]
    refine ⟨hp.length_eq, ?_⟩
    unfold Polygon.hashKey
    rw [e, List.toFinset_eq_of_perm _ _ (hp.map _)]

/-- C20: multipolygons: reordering polygons keeps equality; equality implies equal hash keys; equality
is reflexive, symmetric and transitive on proper multipolygons. -/
theorem C20_multipolygon_eq (a b c : Multipolygon) (ha : ∀ p ∈ a.polygons, ProperPolygon p)
    (hb : ∀ p ∈ b.polygons, ProperPolygon p) (hc : ∀ p ∈ c.polygons, ProperPolygon p) :
    (a.eqB b = true → a.hashKey = b.hashKey) ∧ (a.polygons.Perm b.polygons → a.eqB b = true) ∧
    a.eqB a = true ∧ (a.eqB b = true → b.eqB a = true) ∧
    (a.eqB b = true → b.eqB c = true → a.eqB c = true) := by
  have refl : ∀ p : Polygon, ProperPolygon p → p.eqB p = true :=
    fun p hp => (C20_polygon_eq p p hp hp).1.mpr ⟨rfl, rfl⟩
  refine ⟨?_, ?_, ?_, ?_, ?_⟩
  · unfold Multipolygon.eqB Multipolygon.hashKey
    rw [frozensetEq_iff, Finset.ext_iff]
    rintro ⟨h1, h2⟩ k
    simp only [List.mem_toFinset, List.mem_map]
    constructor
    · rintro ⟨x, hx, rfl⟩
      obtain ⟨y, hy, e⟩ := h1 x hx
      exact ⟨y, hy, (((C20_polygon_eq x y (ha x hx) (hb y hy)).1.mp e).2).symm⟩
    · rintro ⟨x, hx, rfl⟩
      obtain ⟨y, hy, e⟩ := h2 x hx
      exact ⟨y, hy, (((C20_polygon_eq x y (hb x hx) (ha y hy)).1.mp e).2).symm⟩
  · intro hp
    unfold Multipolygon.eqB
    rw [frozensetEq_iff]
    exact ⟨fun x hx => ⟨x, hp.mem_iff.mp hx, refl x (ha x hx)⟩,
      fun x hx => ⟨x, hp.mem_iff.mpr hx, refl x (hb x hx)⟩⟩
  · unfold Multipolygon.eqB
    rw [frozensetEq_iff]
    exact ⟨fun x hx => ⟨x, hx, refl x (ha x hx)⟩, fun x hx => ⟨x, hx, refl x (ha x hx)⟩⟩
  · unfold Multipolygon.eqB
    rw [frozensetEq_iff, frozensetEq_iff]
    exact fun h => ⟨h.2, h.1⟩
  · unfold Multipolygon.eqB
    simp only [frozensetEq_iff]
    rintro ⟨h1, h2⟩ ⟨h3, h4⟩
    have trans : ∀ {x y z : Polygon}, ProperPolygon x → ProperPolygon y → ProperPolygon z →
        x.eqB y = true → y.eqB z = true → x.eqB z = true := by
      intro x y z hx hy hz e1 e2
      rw [(C20_polygon_eq _ _ hx hy).1] at e1
      rw [(C20_polygon_eq _ _ hy hz).1] at e2
      rw [(C20_polygon_eq _ _ hx hz).1]
      exact ⟨e1.1.trans e2.1, e1.2.trans e2.2⟩
    constructor
    · intro x hx
      obtain ⟨y, hy, e1⟩ := h1 x hx
      obtain ⟨z, hz, e2⟩ := h3 y hy
      exact ⟨z, hz, trans (ha x hx) (hb y hy) (hc z hz) e1 e2⟩
    · intro x hx
      obtain ⟨y, hy, e1⟩ := h4 x hx
      obtain ⟨z, hz, e2⟩ := h2 y hy
      exact ⟨z, hz, trans (hc x hx) (hb y hy) (ha z hz) e1 e2⟩

example : ProperPolygon ⟨⟨[⟨0, 0⟩, ⟨9, 0⟩, ⟨9, 9⟩, ⟨0, 9⟩]⟩,
    [⟨[⟨1, 1⟩, ⟨2, 1⟩, ⟨1, 2⟩]⟩, ⟨[⟨4, 4⟩, ⟨5, 4⟩, ⟨4, 5⟩]⟩]⟩ := by
  unfold ProperPolygon ProperContour
  simp only [List.mem_cons, List.not_mem_nil, or_false, forall_eq_or_imp, forall_eq]
  decide +kernel

end Rene
