import Verif.Props.ShapedHoleless
import Verif.Props.Algebra
import Verif.Lemmas.ShapedSize

/-! # C61: expressions over the operators on polygonal geometries

An expression of any size over `&`, `|`, `-`, `^` and valid polygonal geometries is evaluated to the geometry which
locates every point of the plane as the regularised boolean combination of the operands does, provided that the operands
of every operator in it satisfy `CleanOperands`. -/

namespace Rene
open Spec Rene.Sweep

/-! ### Specification -/

/-- The empty geometry, a valid polygon or a valid multipolygon as accepted by the constructor. -/
def Spec.ValidShape (g : Geom) : Prop :=
  ∃ ps, resultPolygons g = some ps ∧ ValidPolygons ps ∧ ∀ m, g = .multipolygon m → 2 ≤ m.polygons.length

/-- The conditions of the four operators. -/
def LinOp.cond : LinOp → Prop → Prop → Prop
  | .intersection => fun a b => a ∧ b
  | .union => fun a b => a ∨ b
  | .difference => fun a b => a ∧ ¬ b
  | .symmetricDifference => fun a b => ¬ (a ↔ b)

/-- The operands are valid, and those of every operator are clean. -/
def LinExpr.Clean (ops : ShapedOps) : LinExpr → Prop
  | .leaf g => ValidShape g
  | .node _ l r => l.Clean ops ∧ r.Clean ops ∧ ∀ x y ps rs, l.eval ops = .ok x → r.eval ops = .ok y →
      resultPolygons x = some ps → resultPolygons y = some rs → ps ≠ [] → rs ≠ [] → CleanOperands ps rs

/-- The point is on the boundary of none of the operands. -/
def LinExpr.Off : LinExpr → Point → Prop
  | .leaf g, z => g.locate z ≠ .boundary
  | .node _ l r, z => l.Off z ∧ r.Off z

/-- The boolean combination of being in the operands. -/
def LinExpr.Holds : LinExpr → Point → Prop
  | .leaf g, z => g.locate z ≠ .exterior
  | .node op l r, z => op.cond (l.Holds z) (r.Holds z)

/-- All the points off the boundaries of the operands which are close enough satisfy the condition. -/
def LinExpr.Nearby (e : LinExpr) (q : Point) (cond : Point → Prop) : Prop :=
  ∃ r > 0, ∀ z : Point, |z.x - q.x| < r → |z.y - q.y| < r → e.Off z → cond z

/-! ### Proofs -/

section
variable {relate : Geom → Geom → Except Err Relation}

theorem locate_of {g : Geom} {res : List Polygon} (h : resultPolygons g = some res) (q : Point) :
    g.locate q = locateInPolygons q res := by
  have := locatedBy_of h q
  cases g <;> simp only [resultPolygons, reduceCtorEq] at h <;> simpa [locatedBy, Geom.locate] using this

/-- What one operator gives. -/
structure Gives (op : LinOp) (l1 l2 : List Polygon) (r : Except Err Geom) (g : Geom) (res : List Polygon) : Prop where
  eq : r = .ok g
  polys : resultPolygons g = some res
  valid : ValidPolygons res
  big : ∀ m, g = .multipolygon m → 2 ≤ m.polygons.length
  exact : ∀ z, z ∉ outlinePts l1 → z ∉ outlinePts l2 →
    z ∉ outlinePts res ∧ (z ∈ insidePts res ↔ op.cond (z ∈ insidePts l1) (z ∈ insidePts l2))

/-- The kind of the sweep. -/
def LinOp.shp : LinOp → ShpOp
  | .intersection => .intersection
  | .union => .union
  | .difference => .difference
  | .symmetricDifference => .symmetricDifference

open Classical in
theorem Gives.of {op : LinOp} {l1 l2 : List Polygon} {r : Except Err Geom} (h : Result op.shp l1 l2 r) (hb : Big r)
    (v1 : ValidPolygons l1) (v2 : ValidPolygons l2) (hc : CleanOperands l1 l2) : ∃ g res, Gives op l1 l2 r g res := by
  obtain ⟨g, res, e1, e2, k⟩ := h
  refine ⟨g, res, e1, e2, k.validPolygons v1 v2 hc, ?_, fun z h1 h2 => ⟨fun h => (k.sub h).elim h1 h2, ?_⟩⟩
  · rintro m rfl
    exact hb m e1
  · rw [k.exact hc z h1 h2 (decide (z ∈ insidePts l1)) (decide (z ∈ insidePts l2)) decide_eq_true_iff decide_eq_true_iff,
      opv_cond, decide_eq_true_iff, decide_eq_true_iff]
    cases op
    case symmetricDifference => exact xor_iff_not_iff _ _
    all_goals exact Iff.rfl

theorem insidePts_nil (z : Point) : z ∉ insidePts [] := by rintro ⟨p, hp, _⟩; cases hp

theorem outlinePts_nil (z : Point) : z ∉ outlinePts [] := by rintro ⟨p, hp, _⟩; cases hp

theorem validPolygons_nil : ValidPolygons [] := ⟨by simp, ⟨by simp, List.Pairwise.nil⟩, List.Pairwise.nil⟩

theorem nonempty_of {l : List Polygon} (h : 2 ≤ l.length) : l ≠ [] := by
  rintro rfl; simp at h

theorem gives (op : LinOp) {x y : Geom} {l1 l2 : List Polygon} (e1 : resultPolygons x = some l1)
    (e2 : resultPolygons y = some l2) (v1 : ValidPolygons l1) (v2 : ValidPolygons l2)
    (b1 : ∀ m, x = .multipolygon m → 2 ≤ m.polygons.length) (b2 : ∀ m, y = .multipolygon m → 2 ≤ m.polygons.length)
    (hc : l1 ≠ [] → l2 ≠ [] → CleanOperands l1 l2) : ∃ g res, Gives op l1 l2 (op.apply (shapedOps relate) x y) g res := by
  have em : ∀ m, Geom.empty = .multipolygon m → 2 ≤ m.polygons.length := fun m k => by cases k
  have left : ∀ {y : Geom} {l2 : List Polygon}, resultPolygons y = some l2 → ValidPolygons l2 →
      (∀ m, y = .multipolygon m → 2 ≤ m.polygons.length) →
      ∃ g res, Gives op [] l2 (op.apply (shapedOps relate) .empty y) g res := by
    intro y l2 e2 v2 b2
    obtain ⟨k1, _, k3, _, k5, _, k7, _⟩ := C33_empty_operators (shapedOps relate) y
    cases op with
    | intersection => exact ⟨.empty, [], k1, rfl, validPolygons_nil, em, fun z h1 h2 => ⟨h1, by
        simp only [LinOp.cond, insidePts_nil, false_and]⟩⟩
    | union => exact ⟨y, l2, k3, e2, v2, b2, fun z h1 h2 => ⟨h2, by simp only [LinOp.cond, insidePts_nil, false_or]⟩⟩
    | difference => exact ⟨.empty, [], k5, rfl, validPolygons_nil, em, fun z h1 h2 => ⟨h1, by
        simp only [LinOp.cond, insidePts_nil, false_and]⟩⟩
    | symmetricDifference => exact ⟨y, l2, k7, e2, v2, b2, fun z h1 h2 => ⟨h2, by
        simp [LinOp.cond, insidePts_nil]⟩⟩
  have right : ∀ {x : Geom} {l1 : List Polygon}, resultPolygons x = some l1 → ValidPolygons l1 →
      (∀ m, x = .multipolygon m → 2 ≤ m.polygons.length) →
      ∃ g res, Gives op l1 [] (op.apply (shapedOps relate) x .empty) g res := by
    intro x l1 e1 v1 b1
    obtain ⟨_, k2, _, k4, _, k6, _, k8⟩ := C33_empty_operators (shapedOps relate) x
    cases op with
    | intersection => exact ⟨.empty, [], k2, rfl, validPolygons_nil, em, fun z h1 h2 => ⟨h2, by
        simp only [LinOp.cond, insidePts_nil, and_false]⟩⟩
    | union => exact ⟨x, l1, k4, e1, v1, b1, fun z h1 h2 => ⟨h1, by simp only [LinOp.cond, insidePts_nil, or_false]⟩⟩
    | difference => exact ⟨x, l1, k6, e1, v1, b1, fun z h1 h2 => ⟨h1, by
        simp only [LinOp.cond, insidePts_nil, not_false_eq_true, and_true]⟩⟩
    | symmetricDifference => exact ⟨x, l1, k8, e1, v1, b1, fun z h1 h2 => ⟨h1, by
        simp [LinOp.cond, insidePts_nil]⟩⟩
  cases x with
  | empty => cases e1; exact left e2 v2 b2
  | segment _ => cases e1
  | contour _ => cases e1
  | multisegment _ => cases e1
  | polygon p =>
    cases y with
    | empty => cases e2; exact right e1 v1 b1
    | segment _ => cases e2
    | contour _ => cases e2
    | multisegment _ => cases e2
    | polygon r =>
      cases e1; cases e2
      have hc' := hc (List.cons_ne_nil _ _) (List.cons_ne_nil _ _)
      have h1 := v1.1 p (by simp)
      have h2 := v2.1 r (by simp)
      cases op with
      | intersection => exact Gives.of (result_intersectPolygonWithPolygon h1 h2) big_intersect1 v1 v2 hc'
      | union => exact Gives.of (result_unitePolygonWithPolygon h1 h2) big_unite1 v1 v2 hc'
      | difference => exact Gives.of (result_subtractPolygonFromPolygon h1 h2) big_subtract1 v1 v2 hc'
      | symmetricDifference => exact Gives.of (result_symmetricSubtractPolygonFromPolygon h1 h2) big_symmetric1 v1 v2 hc'
    | multipolygon n =>
      cases e1; cases e2
      have hc' := hc (List.cons_ne_nil _ _) (nonempty_of (b2 _ rfl))
      have h1 := v1.1 p (by simp)
      have c2 := b2 n rfl
      cases op with
      | intersection => exact Gives.of (result_intersectPolygonWithMultipolygon h1 v2) big_intersect2 v1 v2 hc'
      | union => exact Gives.of (result_unitePolygonWithMultipolygon h1 v2 c2) big_unite2 v1 v2 hc'
      | difference => exact Gives.of (result_subtractMultipolygonFromPolygon h1 v2) big_subtract2 v1 v2 hc'
      | symmetricDifference => exact Gives.of (result_symmetricSubtractMultipolygonFromPolygon h1 v2 c2) big_symmetric2 v1 v2 hc'
  | multipolygon m =>
    have c1 := b1 m rfl
    cases y with
    | empty => cases e2; exact right e1 v1 b1
    | segment _ => cases e2
    | contour _ => cases e2
    | multisegment _ => cases e2
    | polygon r =>
      cases e1; cases e2
      have hc' := hc (nonempty_of (b1 _ rfl)) (List.cons_ne_nil _ _)
      have h2 := v2.1 r (by simp)
      cases op with
      | intersection => exact Gives.of (result_intersectMultipolygonWithPolygon v1 h2) big_intersect3 v1 v2 hc'
      | union => exact Gives.of (result_uniteMultipolygonWithPolygon v1 h2 c1) big_unite3 v1 v2 hc'
      | difference => exact Gives.of (result_subtractPolygonFromMultipolygon v1 h2) (big_subtract3 c1) v1 v2 hc'
      | symmetricDifference => exact Gives.of (result_symmetricSubtractPolygonFromMultipolygon v1 h2 c1) big_symmetric3 v1 v2 hc'
    | multipolygon n =>
      cases e1; cases e2
      have hc' := hc (nonempty_of (b1 _ rfl)) (nonempty_of (b2 _ rfl))
      have c2 := b2 n rfl
      cases op with
      | intersection => exact Gives.of (result_intersectMultipolygonWithMultipolygon v1 v2) big_intersect4 v1 v2 hc'
      | union => exact Gives.of (result_uniteMultipolygonWithMultipolygon v1 v2 c1 c2) big_unite4 v1 v2 hc'
      | difference => exact Gives.of (result_subtractMultipolygonFromMultipolygon v1 v2) (big_subtract4 c1) v1 v2 hc'
      | symmetricDifference =>
        exact Gives.of (result_symmetricSubtractMultipolygonFromMultipolygon v1 v2 c1 c2) big_symmetric4 v1 v2 hc'

/-- The value of an expression. -/
structure Stands (e : LinExpr) (g : Geom) (ps : List Polygon) (E : List Segment) : Prop where
  polys : resultPolygons g = some ps
  valid : ValidPolygons ps
  big : ∀ m, g = .multipolygon m → 2 ≤ m.polygons.length
  ne : ∀ s ∈ E, s.start ≠ s.end
  edges : ∀ z, z ∉ segsPts E → e.Off z
  off : ∀ z, e.Off z → z ∉ outlinePts ps
  inside : ∀ z, e.Off z → (z ∈ insidePts ps ↔ e.Holds z)

theorem stands (e : LinExpr) (h : e.Clean (shapedOps relate)) :
    ∃ g ps E, e.eval (shapedOps relate) = .ok g ∧ Stands e g ps E := by
  induction e with
  | leaf g =>
    obtain ⟨ps, e, V, b⟩ := h
    have key : ∀ z, g.locate z ≠ .boundary → z ∉ outlinePts ps := by
      intro z hz ho
      rw [locate_of e] at hz
      exact hz ((locate_valid V z).1 ho)
    refine ⟨g, ps, outlineEdges ps, rfl, e, V, b, outlineEdges_ne V, fun z hz => ?_, key, fun z hz => ?_⟩
    · show g.locate z ≠ .boundary
      have ho : z ∉ outlinePts ps := by
        rintro ⟨c, hc, s, hs, k⟩
        exact hz ⟨s, List.mem_flatMap.mpr ⟨c, hc, hs⟩, k⟩
      rw [locate_of e]
      by_cases hi : z ∈ insidePts ps
      · rw [(locate_valid V z).2.1 ho hi]; decide
      · rw [(locate_valid V z).2.2 ho hi]; decide
    · show _ ↔ g.locate z ≠ .exterior
      have ho := key z hz
      rw [locate_of e]
      by_cases hi : z ∈ insidePts ps
      · rw [(locate_valid V z).2.1 ho hi]; exact iff_of_true hi (by decide)
      · rw [(locate_valid V z).2.2 ho hi]; exact iff_of_false hi (by decide)
  | node op l r ihl ihr =>
    obtain ⟨c1, c2, c3⟩ := h
    obtain ⟨x, ps, E, ex, sx⟩ := ihl c1
    obtain ⟨y, rs, F, ey, sy⟩ := ihr c2
    obtain ⟨g, res, G⟩ := gives (relate := relate) op sx.polys sy.polys sx.valid sy.valid sx.big sy.big
      (c3 x y ps rs ex ey sx.polys sy.polys)
    refine ⟨g, res, E ++ F, ?_, G.polys, G.valid, G.big, ?_, ?_, ?_, ?_⟩
    · show (do op.apply (shapedOps relate) (← l.eval _) (← r.eval _)) = _
      rw [ex, ey]; exact G.eq
    · intro s hs
      exact (List.mem_append.mp hs).elim (sx.ne s) (sy.ne s)
    · intro z hz
      refine ⟨sx.edges z ?_, sy.edges z ?_⟩
      · rintro ⟨s, hs, k⟩; exact hz ⟨s, List.mem_append_left _ hs, k⟩
      · rintro ⟨s, hs, k⟩; exact hz ⟨s, List.mem_append_right _ hs, k⟩
    · intro z hz
      exact (G.exact z (sx.off z hz.1) (sy.off z hz.2)).1
    · intro z hz
      rw [(G.exact z (sx.off z hz.1) (sy.off z hz.2)).2, sx.inside z hz.1, sy.inside z hz.2]
      rfl

theorem Stands.located {e : LinExpr} {g : Geom} {ps : List Polygon} {E : List Segment} (h : Stands e g ps E) (q : Point) :
    (g.locate q = .interior ↔ e.Nearby q e.Holds) ∧
    (g.locate q = .exterior ↔ e.Nearby q fun z => ¬ e.Holds z) := by
  have V := h.valid
  obtain ⟨c1, c2, c3⟩ := locate_valid V q
  rw [locate_of h.polys]
  by_cases ho : q ∈ outlinePts ps
  · have n1 : ¬ e.Nearby q e.Holds := by
      rintro ⟨ρ, ρ0, hρ⟩
      obtain ⟨z, z1, z2, z3⟩ := (outline_sides V h.ne ho ρ0).2
      have := h.edges z z2
      exact z3 ((h.inside z this).mpr (hρ z z1.1 z1.2 this))
    have n2 : ¬ e.Nearby q fun z => ¬ e.Holds z := by
      rintro ⟨ρ, ρ0, hρ⟩
      obtain ⟨z, z1, z2, z3⟩ := (outline_sides V h.ne ho ρ0).1
      have := h.edges z z2
      exact hρ z z1.1 z1.2 this ((h.inside z this).mp z3)
    rw [c1 ho]
    simp [n1, n2]
  · obtain ⟨ρ, ρ0, hρ⟩ := inside_near V ho
    have gen : ∀ ρ > 0, ∃ z, Near q ρ z ∧ e.Off z := fun ρ ρ0 => by
      obtain ⟨z, z1, z2⟩ := generic_exists h.ne q ρ0
      exact ⟨z, z1, h.edges z z2⟩
    by_cases hi : q ∈ insidePts ps
    · have n1 : e.Nearby q e.Holds :=
        ⟨ρ, ρ0, fun z z1 z2 z3 => (h.inside z z3).mp ((hρ z ⟨z1, z2⟩).mpr hi)⟩
      have n2 : ¬ e.Nearby q fun z => ¬ e.Holds z := by
        rintro ⟨ρ', ρ0', hρ'⟩
        obtain ⟨z, z1, z2⟩ := gen (min ρ ρ') (lt_min ρ0 ρ0')
        have a := z1.mono (min_le_left _ _)
        have b := z1.mono (min_le_right _ _)
        exact hρ' z b.1 b.2 z2 ((h.inside z z2).mp ((hρ z a).mpr hi))
      rw [c2 ho hi]
      simp [n1, n2]
    · have n1 : e.Nearby q fun z => ¬ e.Holds z :=
        ⟨ρ, ρ0, fun z z1 z2 z3 y => hi ((hρ z ⟨z1, z2⟩).mp ((h.inside z z3).mpr y))⟩
      have n2 : ¬ e.Nearby q e.Holds := by
        rintro ⟨ρ', ρ0', hρ'⟩
        obtain ⟨z, z1, z2⟩ := gen (min ρ ρ') (lt_min ρ0 ρ0')
        have a := z1.mono (min_le_left _ _)
        have b := z1.mono (min_le_right _ _)
        exact hi ((hρ z a).mp ((h.inside z z2).mpr (hρ' z b.1 b.2 z2)))
      rw [c3 ho hi]
      simp [n1, n2]

/-! ### Theorems -/

/-- C61: an expression of any size is evaluated without an error to a valid geometry, which locates a point inside, if
all the points nearby satisfy the boolean combination; outside, if none of them does; on the boundary, if there are
both. -/
theorem C61_expressions (e : LinExpr) (h : e.Clean (shapedOps relate)) :
    ∃ g, e.eval (shapedOps relate) = .ok g ∧ ValidShape g ∧ ∀ q,
      (g.locate q = .interior ↔ e.Nearby q e.Holds) ∧
      (g.locate q = .exterior ↔ e.Nearby q fun z => ¬ e.Holds z) ∧
      (g.locate q = .boundary ↔ ¬ e.Nearby q e.Holds ∧ ¬ e.Nearby q fun z => ¬ e.Holds z) := by
  obtain ⟨g, ps, E, ev, s⟩ := stands e h
  refine ⟨g, ev, ⟨ps, s.polys, s.valid, s.big⟩, fun q => ?_⟩
  obtain ⟨h1, h2⟩ := s.located q
  refine ⟨h1, h2, ?_⟩
  rw [← h1, ← h2]
  cases g.locate q <;> decide

/-- C61: every identity between boolean combinations (De Morgan laws, distributivity, `(a - b) | (a & b) = a`,
`(a | b) - (a & b) = a ^ b`, ...) is an identity between the computed geometries: they locate every point in the
same way. -/
theorem C61_identities {e f : LinExpr} (he : e.Clean (shapedOps relate)) (hf : f.Clean (shapedOps relate))
    (h : ∀ z, e.Off z → f.Off z → (e.Holds z ↔ f.Holds z)) :
    ∃ a b, e.eval (shapedOps relate) = .ok a ∧ f.eval (shapedOps relate) = .ok b ∧ ∀ q, a.locate q = b.locate q := by
  obtain ⟨a, ps, E, ea, sa⟩ := stands e he
  obtain ⟨b, rs, F, eb, sb⟩ := stands f hf
  have ne : ∀ s ∈ E ++ F, s.start ≠ s.end := fun s hs => (List.mem_append.mp hs).elim (sa.ne s) (sb.ne s)
  have offs : ∀ z, z ∉ segsPts (E ++ F) → e.Off z ∧ f.Off z := by
    intro z hz
    refine ⟨sa.edges z ?_, sb.edges z ?_⟩
    · rintro ⟨s, hs, k⟩; exact hz ⟨s, List.mem_append_left _ hs, k⟩
    · rintro ⟨s, hs, k⟩; exact hz ⟨s, List.mem_append_right _ hs, k⟩
  have same : ∀ z, z ∉ segsPts (E ++ F) → (z ∈ insidePts ps ↔ z ∈ insidePts rs) := by
    intro z hz
    obtain ⟨k1, k2⟩ := offs z hz
    rw [sa.inside z k1, sb.inside z k2]
    exact h z k1 k2
  have half : ∀ {ps rs : List Polygon}, ValidPolygons ps → ValidPolygons rs →
      (∀ z, z ∉ segsPts (E ++ F) → (z ∈ insidePts ps ↔ z ∈ insidePts rs)) → ∀ q, q ∉ outlinePts ps → q ∉ outlinePts rs := by
    intro ps rs V V' hs q hq hr
    obtain ⟨ρ, ρ0, hρ⟩ := inside_near V hq
    obtain ⟨⟨z, z1, z2, z3⟩, w, w1, w2, w3⟩ := outline_sides V' ne hr ρ0
    exact w3 ((hs w w2).mp ((hρ w w1).mpr ((hρ z z1).mp ((hs z z2).mpr z3))))
  refine ⟨a, b, ea, eb, fun q => ?_⟩
  rw [locate_of sa.polys, locate_of sb.polys]
  obtain ⟨a1, a2, a3⟩ := locate_valid sa.valid q
  obtain ⟨b1, b2, b3⟩ := locate_valid sb.valid q
  by_cases ho : q ∈ outlinePts ps
  · rw [a1 ho, b1 (by by_contra z; exact half sb.valid sa.valid (fun z hz => (same z hz).symm) q z ho)]
  · have ho' := half sa.valid sb.valid same q ho
    obtain ⟨ρ, ρ0, hρ⟩ := inside_near sa.valid ho
    obtain ⟨ρ', ρ0', hρ'⟩ := inside_near sb.valid ho'
    obtain ⟨z, z1, z2⟩ := generic_exists ne q (lt_min ρ0 ρ0')
    have hi : q ∈ insidePts ps ↔ q ∈ insidePts rs := by
      rw [← hρ z (z1.mono (min_le_left _ _)), ← hρ' z (z1.mono (min_le_right _ _))]
      exact same z z2
    by_cases k : q ∈ insidePts ps
    · rw [a2 ho k, b2 ho' (hi.mp k)]
    · rw [a3 ho k, b3 ho' (fun z => k (hi.mpr z))]

/-- `(a - b) | (a & b)`. -/
def Spec.partition (a b : Geom) : LinExpr :=
  .node .union (.node .difference (.leaf a) (.leaf b)) (.node .intersection (.leaf a) (.leaf b))

/-- `(a | b) - (a & b)`. -/
def Spec.unionWithoutIntersection (a b : Geom) : LinExpr :=
  .node .difference (.node .union (.leaf a) (.leaf b)) (.node .intersection (.leaf a) (.leaf b))

/-- `(a - b) | (b - a)`. -/
def Spec.bothDifferences (a b : Geom) : LinExpr :=
  .node .union (.node .difference (.leaf a) (.leaf b)) (.node .difference (.leaf b) (.leaf a))

/-- C61: `(a - b) | (a & b)` locates every point as `a` does. -/
theorem C61_partition {a b : Geom} (h : (partition a b).Clean (shapedOps relate)) :
    ∃ g, (partition a b).eval (shapedOps relate) = .ok g ∧ ∀ q, g.locate q = a.locate q := by
  obtain ⟨g, b, e1, e2, k⟩ := C61_identities (f := .leaf a) h h.1.1 fun z _ _ => by
    show ((_ ∧ ¬ _) ∨ (_ ∧ _)) ↔ _
    rw [← and_or_left, and_iff_left ((Classical.em _).symm)]
  cases e2
  exact ⟨g, e1, k⟩

/-- C61: `(a | b) - (a & b)` locates every point as `a ^ b` does. -/
theorem C61_union_without_intersection {a b : Geom} (h : (unionWithoutIntersection a b).Clean (shapedOps relate)) :
    ∃ g x, (unionWithoutIntersection a b).eval (shapedOps relate) = .ok g ∧ Geom.xor (shapedOps relate) a b = .ok x ∧
      ∀ q, g.locate q = x.locate q := by
  obtain ⟨g, x, e1, e2, k⟩ := C61_identities (f := .node .symmetricDifference (.leaf a) (.leaf b)) h
    ⟨h.1.1, h.1.2.1, h.1.2.2⟩ fun z _ _ => by
      show ((_ ∨ _) ∧ ¬ (_ ∧ _)) ↔ ¬ (_ ↔ _)
      grind
  exact ⟨g, x, e1, e2, k⟩

/-- C61: `(a - b) | (b - a)` locates every point as `a ^ b` does. -/
theorem C61_both_differences {a b : Geom} (h : (bothDifferences a b).Clean (shapedOps relate)) :
    ∃ g x, (bothDifferences a b).eval (shapedOps relate) = .ok g ∧ Geom.xor (shapedOps relate) a b = .ok x ∧
      ∀ q, g.locate q = x.locate q := by
  obtain ⟨g, x, e1, e2, k⟩ := C61_identities (f := .node .symmetricDifference (.leaf a) (.leaf b)) h
    ⟨h.1.1, h.1.2.1, h.1.2.2⟩ fun z _ _ => by
      show ((_ ∧ ¬ _) ∨ (_ ∧ ¬ _)) ↔ ¬ (_ ↔ _)
      grind
  exact ⟨g, x, e1, e2, k⟩

end

/-! ### Concrete cases -/

theorem clean_node {op : LinOp} {l r : LinExpr} {ops : ShapedOps} {x y : Geom} {ps rs : List Polygon}
    (hl : l.Clean ops) (hr : r.Clean ops) (ex : l.eval ops = .ok x) (ey : r.eval ops = .ok y)
    (px : resultPolygons x = some ps) (py : resultPolygons y = some rs) (h : CleanOperands ps rs) :
    (LinExpr.node op l r).Clean ops := by
  refine ⟨hl, hr, fun x' y' ps' rs' ex' ey' px' py' _ _ => ?_⟩
  rw [ex] at ex'; rw [ey] at ey'; cases ex'; cases ey'
  rw [px] at px'; rw [py] at py'; cases px'; cases py'
  exact h

/-- The relation is not used. -/
abbrev Spec.noRelate : Geom → Geom → Except Err Relation := fun _ _ => .error .typeError

theorem exBoard_shape : ValidShape (.polygon exBoard) :=
  ⟨[exBoard], rfl, validPolygons_single exBoard_valid, fun m h => by cases h⟩

theorem exBoth_shape : ValidShape (.multipolygon exBoth) :=
  ⟨exBoth.polygons, rfl, exBoth_valid, fun m h => by cases h; decide⟩

/-- `exBoard - exBoth`. -/
def Spec.exRest : Multipolygon := ⟨[⟨⟨[⟨3, 2⟩, ⟨4, 2⟩, ⟨4, 4⟩, ⟨3, 4⟩]⟩, []⟩,
  ⟨⟨[⟨6, 1⟩, ⟨33 / 4, 1⟩, ⟨9, 4⟩, ⟨19 / 2, 2⟩, ⟨19 / 2, 5⟩, ⟨6, 5⟩]⟩, []⟩]⟩

/-- `exBoard & exBoth`. -/
def Spec.exCommon : Multipolygon := ⟨[
  ⟨⟨[⟨3, 1⟩, ⟨6, 1⟩, ⟨6, 5⟩, ⟨3, 5⟩, ⟨3, 4⟩, ⟨4, 4⟩, ⟨4, 2⟩, ⟨3, 2⟩]⟩, []⟩,
  ⟨⟨[⟨33 / 4, 1⟩, ⟨19 / 2, 1⟩, ⟨19 / 2, 2⟩, ⟨9, 4⟩]⟩, []⟩]⟩

theorem exRest_clean : CleanOperands exRest.polygons exCommon.polygons := by
  have f1 : FullyNoded (outlineEdges exRest.polygons) := fullyNoded_of_nodedB ⟨by decide +kernel, by decide +kernel⟩
  have f2 : FullyNoded (outlineEdges exCommon.polygons) := fullyNoded_of_nodedB ⟨by decide +kernel, by decide +kernel⟩
  exact ⟨f1, f2, lone_of f1 f2 (by decide +kernel), lone_of f2 f1 (by decide +kernel)⟩

/-- C61: the hypothesis holds in a concrete case, where a polygon with vertices in two polygons, one of which has a
hole, is partitioned into four ones. -/
theorem exPartition_clean : (partition (.polygon exBoard) (.multipolygon exBoth)).Clean (shapedOps noRelate) := by
  have c : ∀ op, (LinExpr.node op (.leaf (.polygon exBoard)) (.leaf (.multipolygon exBoth))).Clean (shapedOps noRelate) :=
    fun op => clean_node exBoard_shape exBoth_shape rfl rfl rfl rfl exBoard_clean
  refine clean_node (x := .multipolygon exRest) (y := .multipolygon exCommon) (c _) (c _) ?_ ?_ rfl rfl exRest_clean
  · show subtractMultipolygonFromPolygon exBoard exBoth = _
    decide +kernel
  · show intersectPolygonWithMultipolygon exBoard exBoth = _
    decide +kernel

/-- The partition is united to a geometry which locates all the points as the polygon does. -/
example : ∃ g, (partition (.polygon exBoard) (.multipolygon exBoth)).eval (shapedOps noRelate) = .ok g ∧
    ∀ q, g.locate q = (Geom.polygon exBoard).locate q := C61_partition exPartition_clean

end Rene
