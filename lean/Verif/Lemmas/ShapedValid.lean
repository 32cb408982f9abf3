import Verif.Lemmas.Regular
import Verif.Lemmas.ShapedCore

/-! Results of boolean operations on polygons are valid and regular. -/

namespace Rene
open Spec Sweep

theorem outlineEdges_pts (l : List Polygon) : segsPts (outlineEdges l) = outlinePts l := segsPts_contours l

theorem outlineEdges_ne {l : List Polygon} (h : ValidPolygons l) : ∀ s ∈ outlineEdges l, s.start ≠ s.end := by
  intro s hs
  unfold outlineEdges at hs
  rw [contoursOf_segments] at hs
  exact h.2.1.1 s hs

theorem mem_both {l1 l2 : List Polygon} {q : Point} :
    q ∉ segsPts (outlineEdges l1 ++ outlineEdges l2) ↔ q ∉ outlinePts l1 ∧ q ∉ outlinePts l2 := by
  rw [← outlineEdges_pts, ← outlineEdges_pts, ← not_or]
  refine not_congr ⟨?_, ?_⟩
  · rintro ⟨s, hs, k⟩
    exact (List.mem_append.mp hs).imp (fun z => ⟨s, z, k⟩) fun z => ⟨s, z, k⟩
  · rintro (⟨s, hs, k⟩ | ⟨s, hs, k⟩)
    · exact ⟨s, List.mem_append_left _ hs, k⟩
    · exact ⟨s, List.mem_append_right _ hs, k⟩

theorem both_ne {l1 l2 : List Polygon} (v1 : ValidPolygons l1) (v2 : ValidPolygons l2) :
    ∀ s ∈ outlineEdges l1 ++ outlineEdges l2, s.start ≠ s.end := fun s hs =>
  (List.mem_append.mp hs).elim (outlineEdges_ne v1 s) (outlineEdges_ne v2 s)

theorem Combined.validPolygons {op : ShpOp} {l1 l2 res : List Polygon} (h : Combined op l1 l2 res) (v1 : ValidPolygons l1)
    (v2 : ValidPolygons l2) (hc : CleanOperands l1 l2) : ValidPolygons res :=
  validPolygons_of h.simple h.noOv (both_ne v1 v2) fun q hq => h.valid hc q (mem_both.mp hq).1 (mem_both.mp hq).2

theorem Result.valid {op : ShpOp} {l1 l2 : List Polygon} {r : Except Err Geom} (h : Result op l1 l2 r) (v1 : ValidPolygons l1)
    (v2 : ValidPolygons l2) (hc : CleanOperands l1 l2) : ValidResult r := by
  obtain ⟨g, res, e1, e2, k⟩ := h
  exact ⟨g, res, e1, e2, k.validPolygons v1 v2 hc⟩

/-- Location in valid polygons. -/
theorem locate_valid {res : List Polygon} (V : ValidPolygons res) (q : Point) :
    (q ∈ outlinePts res → locateInPolygons q res = .boundary) ∧
    (q ∉ outlinePts res → q ∈ insidePts res → locateInPolygons q res = .interior) ∧
    (q ∉ outlinePts res → q ∉ insidePts res → locateInPolygons q res = .exterior) := by
  have bnd : ∀ p ∈ res, p.locate q = .boundary → q ∈ outlinePts res := fun p hp k => by
    rcases (C24_polygon_locate p q).2.mp k with k | ⟨_, _, c, _, e, k, _⟩
    · exact ⟨p.border, List.mem_flatMap.mpr ⟨p, hp, by simp [polygonContours]⟩, k⟩
    · exact ⟨c, List.mem_flatMap.mpr ⟨p, hp, by simp [polygonContours, e]⟩, k⟩
  have out : q ∈ outlinePts res → ∃ p ∈ res, p.locate q = .boundary := by
    rintro ⟨c, hc, k⟩
    obtain ⟨p, hp, hcp⟩ := List.mem_flatMap.mp hc
    exact ⟨p, hp, by by_contra z; exact off_contours (V.1 p hp) z c hcp k⟩
  have excl : ∀ p ∈ res, ∀ r ∈ res, p.locate q = .boundary → r.locate q = .interior → False := by
    intro p hp r hr k1 k2
    rw [List.mem_iff_getElem] at hp hr
    obtain ⟨i, hi, rfl⟩ := hp
    obtain ⟨j, hj, rfl⟩ := hr
    rcases lt_trichotomy i j with z | rfl | z
    · exact (List.pairwise_iff_getElem.mp V.2.2 i j hi hj z q).2 ⟨k2, by rw [k1]; decide⟩
    · rw [k1] at k2; cases k2
    · exact (List.pairwise_iff_getElem.mp V.2.2 j i hj hi z q).1 ⟨k2, by rw [k1]; decide⟩
  have first : locateInPolygons q res = .exterior ∧ (∀ p ∈ res, p.locate q = .exterior) ∨
      ∃ p ∈ res, p.locate q ≠ .exterior ∧ locateInPolygons q res = p.locate q := by
    clear bnd out excl V
    induction res with
    | nil => left; exact ⟨rfl, fun p hp => absurd hp List.not_mem_nil⟩
    | cons p l ih =>
      unfold locateInPolygons
      by_cases hp : p.locate q = .exterior
      · rw [if_neg (by simpa using hp)]
        rcases ih with ⟨z1, z2⟩ | ⟨r, r1, r2, r3⟩
        · left; exact ⟨z1, fun r hr => by rcases List.mem_cons.mp hr with rfl | k; exacts [hp, z2 r k]⟩
        · right; exact ⟨r, List.mem_cons_of_mem _ r1, r2, r3⟩
      · rw [if_pos hp]
        right; exact ⟨p, List.mem_cons_self, hp, rfl⟩
  have cases : ∀ x : Location, x ≠ .exterior → x = .boundary ∨ x = .interior := by intro x; cases x <;> decide
  refine ⟨fun h => ?_, fun h k => ?_, fun h k => ?_⟩
  · obtain ⟨p, hp, hl⟩ := out h
    rcases first with ⟨_, z⟩ | ⟨r, r1, r2, r3⟩
    · rw [z p hp] at hl; cases hl
    · rw [r3]
      exact (cases _ r2).resolve_right fun z => excl p hp r r1 hl z
  · obtain ⟨p, hp, hl⟩ := k
    rcases first with ⟨_, z⟩ | ⟨r, r1, r2, r3⟩
    · rw [z p hp] at hl; cases hl
    · rw [r3]
      exact (cases _ r2).resolve_left fun z => h (bnd r r1 z)
  · rcases first with ⟨z, _⟩ | ⟨r, r1, r2, r3⟩
    · exact z
    · rcases cases _ r2 with y | y
      · exact absurd (bnd r r1 y) h
      · exact absurd ⟨r, r1, y⟩ k

open Classical in
/-- The location of every point by the result. -/
theorem Result.regular {op : ShpOp} {l1 l2 : List Polygon} {r : Except Err Geom} (h : Result op l1 l2 r) (v1 : ValidPolygons l1)
    (v2 : ValidPolygons l2) (hc : CleanOperands l1 l2) : Regular (condOf op) l1 l2 r := by
  obtain ⟨g, res, e1, e2, k⟩ := h
  have V := k.validPolygons v1 v2 hc
  refine ⟨g, e1, fun q => ?_⟩
  have key : ∀ z, z ∉ outlinePts l1 → z ∉ outlinePts l2 →
      (z ∈ insidePts res ↔ condOf op (z ∈ regionPts l1) (z ∈ regionPts l2)) := by
    intro z h1 h2
    have r1 : z ∈ regionPts l1 ↔ z ∈ insidePts l1 := by
      rw [mem_region v1, segsPts_edges v1.1]; exact or_iff_right h1
    have r2 : z ∈ regionPts l2 ↔ z ∈ insidePts l2 := by
      rw [mem_region v2, segsPts_edges v2.1]; exact or_iff_right h2
    rw [k.exact hc z h1 h2 (decide (z ∈ insidePts l1)) (decide (z ∈ insidePts l2)) decide_eq_true_iff decide_eq_true_iff,
      opv_cond, decide_eq_true_iff, decide_eq_true_iff, ← r1, ← r2]
  have gen : ∀ ρ > 0, ∃ z, Near q ρ z ∧ z ∉ outlinePts l1 ∧ z ∉ outlinePts l2 := fun ρ ρ0 => by
    obtain ⟨z, z1, z2⟩ := generic_exists (both_ne v1 v2) q ρ0
    exact ⟨z, z1, mem_both.mp z2⟩
  obtain ⟨c1, c2, c3⟩ := locate_valid V q
  rw [locatedBy_of e2]
  simp only [Option.some.injEq]
  by_cases ho : q ∈ outlinePts res
  · have n1 : ¬ Around l1 l2 q fun z => condOf op (z ∈ regionPts l1) (z ∈ regionPts l2) := by
      rintro ⟨ρ, ρ0, hρ⟩
      obtain ⟨z, z1, z2, z3⟩ := (outline_sides V (both_ne v1 v2) ho ρ0).2
      obtain ⟨z4, z5⟩ := mem_both.mp z2
      exact z3 ((key z z4 z5).mpr (hρ z z1.1 z1.2 z4 z5))
    have n2 : ¬ Around l1 l2 q fun z => ¬ condOf op (z ∈ regionPts l1) (z ∈ regionPts l2) := by
      rintro ⟨ρ, ρ0, hρ⟩
      obtain ⟨z, z1, z2, z3⟩ := (outline_sides V (both_ne v1 v2) ho ρ0).1
      obtain ⟨z4, z5⟩ := mem_both.mp z2
      exact hρ z z1.1 z1.2 z4 z5 ((key z z4 z5).mp z3)
    rw [c1 ho]
    simp [n1, n2]
  · obtain ⟨ρ, ρ0, hρ⟩ := inside_near V ho
    by_cases hi : q ∈ insidePts res
    · have n1 : Around l1 l2 q fun z => condOf op (z ∈ regionPts l1) (z ∈ regionPts l2) :=
        ⟨ρ, ρ0, fun z z1 z2 z3 z4 => (key z z3 z4).mp ((hρ z ⟨z1, z2⟩).mpr hi)⟩
      have n2 : ¬ Around l1 l2 q fun z => ¬ condOf op (z ∈ regionPts l1) (z ∈ regionPts l2) := by
        rintro ⟨ρ', ρ0', hρ'⟩
        obtain ⟨z, z1, z2, z3⟩ := gen (min ρ ρ') (lt_min ρ0 ρ0')
        have a := z1.mono (min_le_left _ _)
        have b := z1.mono (min_le_right _ _)
        exact hρ' z b.1 b.2 z2 z3 ((key z z2 z3).mp ((hρ z a).mpr hi))
      rw [c2 ho hi]
      simp [n1, n2]
    · have n1 : Around l1 l2 q fun z => ¬ condOf op (z ∈ regionPts l1) (z ∈ regionPts l2) :=
        ⟨ρ, ρ0, fun z z1 z2 z3 z4 y => hi ((hρ z ⟨z1, z2⟩).mp ((key z z3 z4).mpr y))⟩
      have n2 : ¬ Around l1 l2 q fun z => condOf op (z ∈ regionPts l1) (z ∈ regionPts l2) := by
        rintro ⟨ρ', ρ0', hρ'⟩
        obtain ⟨z, z1, z2, z3⟩ := gen (min ρ ρ') (lt_min ρ0 ρ0')
        have a := z1.mono (min_le_left _ _)
        have b := z1.mono (min_le_right _ _)
        exact hi ((hρ z a).mp ((key z z2 z3).mpr (hρ' z b.1 b.2 z2 z3)))
      rw [c3 ho hi]
      simp [n1, n2]

/-- The same for valid polygons themselves. -/
theorem around_self {l : List Polygon} (V : ValidPolygons l) (q : Point) :
    (locateInPolygons q l = .interior ↔ Around l l q fun z => z ∈ regionPts l) ∧
    (locateInPolygons q l = .exterior ↔ Around l l q fun z => z ∉ regionPts l) := by
  have key : ∀ z, z ∉ outlinePts l → (z ∈ insidePts l ↔ z ∈ regionPts l) := by
    intro z h1
    rw [mem_region V, segsPts_edges V.1]; exact (or_iff_right h1).symm
  obtain ⟨c1, c2, c3⟩ := locate_valid V q
  by_cases ho : q ∈ outlinePts l
  · have n1 : ¬ Around l l q fun z => z ∈ regionPts l := by
      rintro ⟨ρ, ρ0, hρ⟩
      obtain ⟨z, z1, z2, z3⟩ := (outline_sides V (both_ne V V) ho ρ0).2
      obtain ⟨z4, z5⟩ := mem_both.mp z2
      exact z3 ((key z z4).mpr (hρ z z1.1 z1.2 z4 z5))
    have n2 : ¬ Around l l q fun z => z ∉ regionPts l := by
      rintro ⟨ρ, ρ0, hρ⟩
      obtain ⟨z, z1, z2, z3⟩ := (outline_sides V (both_ne V V) ho ρ0).1
      obtain ⟨z4, z5⟩ := mem_both.mp z2
      exact hρ z z1.1 z1.2 z4 z5 ((key z z4).mp z3)
    rw [c1 ho]
    simp [n1, n2]
  · obtain ⟨ρ, ρ0, hρ⟩ := inside_near V ho
    obtain ⟨w, w1, w2⟩ : ∃ w, Near q ρ w ∧ w ∉ outlinePts l := by
      obtain ⟨z, z1, z2⟩ := generic_exists (both_ne V V) q ρ0
      exact ⟨z, z1, (mem_both.mp z2).1⟩
    have gen : ∀ ρ > 0, ∃ z, Near q ρ z ∧ z ∉ outlinePts l := fun ρ ρ0 => by
      obtain ⟨z, z1, z2⟩ := generic_exists (both_ne V V) q ρ0
      exact ⟨z, z1, (mem_both.mp z2).1⟩
    by_cases hi : q ∈ insidePts l
    · have n1 : Around l l q fun z => z ∈ regionPts l :=
        ⟨ρ, ρ0, fun z z1 z2 z3 _ => (key z z3).mp ((hρ z ⟨z1, z2⟩).mpr hi)⟩
      have n2 : ¬ Around l l q fun z => z ∉ regionPts l := by
        rintro ⟨ρ', ρ0', hρ'⟩
        obtain ⟨z, z1, z2⟩ := gen (min ρ ρ') (lt_min ρ0 ρ0')
        have a := z1.mono (min_le_left _ _)
        have b := z1.mono (min_le_right _ _)
        exact hρ' z b.1 b.2 z2 z2 ((key z z2).mp ((hρ z a).mpr hi))
      rw [c2 ho hi]
      simp [n1, n2]
    · have n1 : Around l l q fun z => z ∉ regionPts l :=
        ⟨ρ, ρ0, fun z z1 z2 z3 _ y => hi ((hρ z ⟨z1, z2⟩).mp ((key z z3).mpr y))⟩
      have n2 : ¬ Around l l q fun z => z ∈ regionPts l := by
        rintro ⟨ρ', ρ0', hρ'⟩
        obtain ⟨z, z1, z2⟩ := gen (min ρ ρ') (lt_min ρ0 ρ0')
        have a := z1.mono (min_le_left _ _)
        have b := z1.mono (min_le_right _ _)
        exact hi ((hρ z a).mp ((key z z2).mpr (hρ' z b.1 b.2 z2 z2)))
      rw [c3 ho hi]
      simp [n1, n2]

theorem around_congr {l1 l2 m1 m2 : List Polygon} {q : Point} {P Q : Point → Prop}
    (h : ∀ z, (z ∈ outlinePts l1 ∨ z ∈ outlinePts l2) ↔ (z ∈ outlinePts m1 ∨ z ∈ outlinePts m2)) (k : ∀ z, P z ↔ Q z) :
    Around l1 l2 q P ↔ Around m1 m2 q Q := by
  have o : ∀ z, (z ∉ outlinePts l1 ∧ z ∉ outlinePts l2) ↔ (z ∉ outlinePts m1 ∧ z ∉ outlinePts m2) := fun z => by
    rw [← not_or, ← not_or, h z]
  refine exists_congr fun r => and_congr_right fun _ => forall_congr' fun z => forall_congr' fun _ => forall_congr' fun _ => ?_
  constructor
  · intro f a b
    obtain ⟨a', b'⟩ := (o z).mpr ⟨a, b⟩
    exact (k z).mp (f a' b')
  · intro f a b
    obtain ⟨a', b'⟩ := (o z).mp ⟨a, b⟩
    exact (k z).mpr (f a' b')

theorem regular_some {cond : Prop → Prop → Prop} {l1 l2 : List Polygon} {g : Geom} {q : Point}
    (h : (locatedBy g q = some .interior ↔ Around l1 l2 q fun z => cond (z ∈ regionPts l1) (z ∈ regionPts l2)) ∧
    (locatedBy g q = some .exterior ↔ Around l1 l2 q fun z => ¬ cond (z ∈ regionPts l1) (z ∈ regionPts l2)) ∧
    (locatedBy g q = some .boundary ↔ ¬ (Around l1 l2 q fun z => cond (z ∈ regionPts l1) (z ∈ regionPts l2)) ∧
      ¬ (Around l1 l2 q fun z => ¬ cond (z ∈ regionPts l1) (z ∈ regionPts l2)))) : ∃ x, locatedBy g q = some x := by
  by_cases a : Around l1 l2 q fun z => cond (z ∈ regionPts l1) (z ∈ regionPts l2)
  · exact ⟨_, h.1.mpr a⟩
  · by_cases b : Around l1 l2 q fun z => ¬ cond (z ∈ regionPts l1) (z ∈ regionPts l2)
    · exact ⟨_, h.2.1.mpr b⟩
    · exact ⟨_, h.2.2.mpr ⟨a, b⟩⟩

/-- Swapped operands. -/
theorem same_of_swap {cond : Prop → Prop → Prop} (hc : ∀ a b, cond a b ↔ cond b a) {l1 l2 : List Polygon} {r r' : Except Err Geom}
    (h : Regular cond l1 l2 r) (h' : Regular cond l2 l1 r') : SameLocations r r' := by
  obtain ⟨g, e, k⟩ := h
  obtain ⟨g', e', k'⟩ := h'
  refine ⟨g, g', e, e', fun q => ?_⟩
  obtain ⟨x, hx⟩ := regular_some (k q)
  refine ⟨x, hx, ?_⟩
  have a1 : (Around l1 l2 q fun z => cond (z ∈ regionPts l1) (z ∈ regionPts l2)) ↔
      Around l2 l1 q fun z => cond (z ∈ regionPts l2) (z ∈ regionPts l1) := around_congr (fun _ => or_comm) fun _ => hc _ _
  have a2 : (Around l1 l2 q fun z => ¬ cond (z ∈ regionPts l1) (z ∈ regionPts l2)) ↔
      Around l2 l1 q fun z => ¬ cond (z ∈ regionPts l2) (z ∈ regionPts l1) :=
    around_congr (fun _ => or_comm) fun _ => not_congr (hc _ _)
  obtain ⟨k1, k2, k3⟩ := k q
  obtain ⟨m1, m2, m3⟩ := k' q
  rw [hx] at k1 k2 k3
  rw [a1] at k1 k3
  rw [a2] at k2 k3
  cases x
  · exact m3.mpr (k3.mp rfl)
  · exact m2.mpr (k2.mp rfl)
  · exact m1.mpr (k1.mp rfl)

/-- The operation of an operand with itself gives it back. -/
theorem same_of_self {cond : Prop → Prop → Prop} (hc : ∀ a, cond a a ↔ a) {l : List Polygon} (V : ValidPolygons l)
    {r : Except Err Geom} (h : Regular cond l l r) {g' : Geom} (hg : resultPolygons g' = some l) : SameLocations r (.ok g') := by
  obtain ⟨g, e, k⟩ := h
  refine ⟨g, g', e, rfl, fun q => ?_⟩
  obtain ⟨x, hx⟩ := regular_some (k q)
  refine ⟨x, hx, ?_⟩
  obtain ⟨s1, s2⟩ := around_self V q
  have a1 : (Around l l q fun z => cond (z ∈ regionPts l) (z ∈ regionPts l)) ↔ Around l l q fun z => z ∈ regionPts l :=
    around_congr (fun _ => Iff.rfl) fun _ => hc _
  have a2 : (Around l l q fun z => ¬ cond (z ∈ regionPts l) (z ∈ regionPts l)) ↔ Around l l q fun z => z ∉ regionPts l :=
    around_congr (fun _ => Iff.rfl) fun _ => not_congr (hc _)
  obtain ⟨k1, k2, k3⟩ := k q
  rw [hx, a1, ← s1] at k1
  rw [hx, a2, ← s2] at k2
  rw [hx, a1, a2, ← s1, ← s2] at k3
  rw [locatedBy_of hg, Option.some.injEq]
  cases x
  · obtain ⟨z1, z2⟩ := k3.mp rfl
    revert z1 z2
    generalize locateInPolygons q l = y
    cases y <;> decide
  · exact k2.mp rfl
  · exact k1.mp rfl

/-- An operation whose condition never holds gives the empty geometry. -/
theorem empty_of {cond : Prop → Prop → Prop} {l : List Polygon} (hc : ∀ a, ¬ cond a a) {r : Except Err Geom}
    (h : Regular cond l l r) (hv : ValidResult r) (hm : ∀ m, r = .ok (.multipolygon m) → m.polygons ≠ []) : r = .ok .empty := by
  obtain ⟨g, e, k⟩ := h
  obtain ⟨g', ps, e', e2, V⟩ := hv
  rw [e] at e'
  cases e'
  have out : ∀ q, locatedBy g q = some .exterior := fun q => (k q).2.1.mpr ⟨1, one_pos, fun z _ _ _ _ => hc _⟩
  rcases ps with _ | ⟨p, ps⟩
  · rw [e]
    unfold resultPolygons at e2
    cases g with
    | empty => rfl
    | polygon p => cases e2
    | multipolygon m =>
      simp only [Option.some.injEq] at e2
      exact absurd e2 (hm m e)
    | _ => cases e2
  · exfalso
    have hp : p ∈ p :: ps := by simp
    have hs := (V.1 p hp).1 p.border (by simp [polygonContours])
    have hne : p.border.segments ≠ [] := by
      intro z
      have h3 := hs.1
      obtain ⟨s, hs', _⟩ := exists_down (vs := p.border.vertices) hs
      have : s ∈ p.border.segments := hs'
      rw [z] at this
      cases this
    obtain ⟨s, hs'⟩ := List.exists_mem_of_ne_nil _ hne
    have hq : s.start ∈ outlinePts (p :: ps) :=
      ⟨p.border, List.mem_flatMap.mpr ⟨p, hp, by simp [polygonContours]⟩, s, hs', start_mem_seg _ _⟩
    have := out s.start
    rw [locatedBy_of e2, (locate_valid V s.start).1 hq] at this
    cases this

end Rene
