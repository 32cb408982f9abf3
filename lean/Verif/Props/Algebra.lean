import Verif.Props.Contours
import Verif.Props.Basics
import Verif.Model.Dispatch
import Verif.Props.Multisegmentals

/-! # C33: the empty geometry; C43: the operators on linear geometries as an algebra -/

namespace Rene
open Spec

/-! ### C33 -/

/-- C33: for every geometry the empty one is absorbing for `&`, neutral for `|`, `^` and right operand of `-`,
whatever the functions for polygons do. -/
theorem C33_empty_operators (ops : ShapedOps) (g : Geom) :
    Geom.and ops .empty g = .ok .empty ∧ Geom.and ops g .empty = .ok .empty ∧
    Geom.or ops .empty g = .ok g ∧ Geom.or ops g .empty = .ok g ∧
    Geom.sub ops .empty g = .ok .empty ∧ Geom.sub ops g .empty = .ok g ∧
    Geom.xor ops .empty g = .ok g ∧ Geom.xor ops g .empty = .ok g := by
  cases g <;> exact ⟨rfl, rfl, rfl, rfl, rfl, rfl, rfl, rfl⟩

/-- C33: the empty geometry contains no point, is related only to itself by `EQUAL` and to the others by `DISJOINT`,
and is equal exactly to itself. -/
theorem C33_empty_queries (ops : ShapedOps) (g : Geom) (p : Point) :
    Geom.locate .empty p = .exterior ∧ Geom.contains .empty p = false ∧
    Geom.relateTo ops .empty .empty = .ok .equal ∧
    (g ≠ .empty → Geom.relateTo ops .empty g = .ok .disjoint ∧ Geom.relateTo ops g .empty = .ok .disjoint) ∧
    (Geom.eqB .empty g = true ↔ g = .empty) ∧ (Geom.eqB g .empty = true ↔ g = .empty) := by
  cases g <;> simp [Geom.locate, Geom.contains, Geom.relateTo, Geom.eqB]

/-- `in` and `locate` agree for every geometry. -/
theorem C33_contains_iff (g : Geom) (p : Point) : Geom.contains g p = true ↔ Geom.locate g p ≠ .exterior := by
  cases g with
  | empty => simp [Geom.locate, Geom.contains]
  | _ => unfold Geom.contains; exact decide_eq_true_iff

example : Geom.or ⟨fun _ _ => .error .typeError, fun _ _ => .error .typeError, fun _ _ => .error .typeError,
    fun _ _ => .error .typeError, fun _ _ => .error .typeError⟩ .empty
    (.segment ⟨⟨0, 0⟩, ⟨1, 0⟩⟩) = .ok (.segment ⟨⟨0, 0⟩, ⟨1, 0⟩⟩) := rfl

/-! ### C43 -/

/-- The four set operations. -/
def LinOp.set : LinOp → Set Point → Set Point → Set Point
  | .intersection, A, B => A ∩ B
  | .union, A, B => A ∪ B
  | .difference, A, B => A \ B
  | .symmetricDifference, A, B => (A \ B) ∪ (B \ A)

/-- The four operators. -/
def LinOp.apply (ops : ShapedOps) : LinOp → Geom → Geom → Except Err Geom
  | .intersection => Geom.and ops
  | .union => Geom.or ops
  | .difference => Geom.sub ops
  | .symmetricDifference => Geom.xor ops

theorem Spec.SameUpToFinite.symm {S T : Set Point} (h : SameUpToFinite S T) : SameUpToFinite T S := by
  obtain ⟨F, h⟩ := h; exact ⟨F, fun p hp => (h p hp).symm⟩

theorem Spec.SameUpToFinite.rfl {S : Set Point} : SameUpToFinite S S := ⟨[], fun _ _ => Iff.rfl⟩

theorem Spec.SameUpToFinite.trans {S T U : Set Point} (h : SameUpToFinite S T) (h' : SameUpToFinite T U) :
    SameUpToFinite S U := by
  obtain ⟨F, h⟩ := h
  obtain ⟨F', h'⟩ := h'
  refine ⟨F ++ F', fun p hp => ?_⟩
  rw [List.mem_append, not_or] at hp
  exact (h p hp.1).trans (h' p hp.2)

theorem Spec.SameUpToFinite.op {A A' B B' : Set Point} (hA : SameUpToFinite A A') (hB : SameUpToFinite B B') (op : LinOp) :
    SameUpToFinite (op.set A B) (op.set A' B') := by
  obtain ⟨F, h⟩ := hA
  obtain ⟨F', h'⟩ := hB
  refine ⟨F ++ F', fun p hp => ?_⟩
  rw [List.mem_append, not_or] at hp
  have h1 := h p hp.1
  have h2 := h' p hp.2
  cases op <;> simp only [LinOp.set, Set.mem_inter_iff, Set.mem_union, Set.mem_diff, h1, h2]

theorem Spec.ValidLinear.noOverlap {g : Geom} (h : ValidLinear g) : NoOverlap (geomSegs g) := by
  cases g with
  | empty => exact ⟨by simp [geomSegs], List.Pairwise.nil⟩
  | segment s => exact noOverlap_single h
  | contour c => exact h.2
  | multisegment m => exact h.2
  | polygon _ => exact h.elim
  | multipolygon _ => exact h.elim

/-- The regularised boolean combination of two linear sets differs from the plain one by finitely many points. -/
theorem reg_op {A B : List Segment} (hA : NoOverlap A) (hB : NoOverlap B) (op : LinOp) :
    SameUpToFinite (reg (op.set (segsPts A) (segsPts B))) (op.set (segsPts A) (segsPts B)) := by
  obtain ⟨n, _, F, k1, k2⟩ := Sweep.run_spec hA hB op (stop := fun _ => false) (by intro p q _ h; simp at h)
  have e1 : ∀ q ∉ F, q ∈ segsPts (op.run (fun _ => false) A B) → q ∈ op.set (segsPts A) (segsPts B) := by
    intro q hq hm
    have := k1 q hq hm
    cases op <;> simpa [LinOp.holds, LinOp.set] using this
  have e2 : ∀ q ∉ F, q ∈ op.set (segsPts A) (segsPts B) → q ∈ segsPts (op.run (fun _ => false) A B) := by
    intro q hq hm
    have hh : op.holds (q ∈ segsPts A) (q ∈ segsPts B) := by
      cases op <;> simpa [LinOp.holds, LinOp.set] using hm
    have hx : q ∈ segsPts A ∪ segsPts B := by
      cases op <;> simp only [LinOp.set, Set.mem_inter_iff, Set.mem_union, Set.mem_diff] at hm <;>
        simp only [Set.mem_union] <;> tauto
    rw [← segsPts_append] at hx
    obtain ⟨s, hs, hqs⟩ := hx
    exact k2 q hq s hs hqs rfl hh
  have e := reg_eq_of_finite (S := op.set (segsPts A) (segsPts B)) n.1 F (fun p hp hF => e1 p hF hp)
    (fun p hp hF => e2 p hF hp)
  rw [← e]
  exact ⟨F, fun p hp => ⟨e1 p hp, e2 p hp⟩⟩


theorem linPts_empty : linPts .empty = ∅ := segsPts_nil

theorem linPts_segment (s : Segment) : linPts (.segment s) = segPts s := segsPts_single s

theorem geomSegs_toGeom' (m : Multisegmental) : linPts m.toGeom = segsPts m.segments := by cases m <;> rfl

theorem valid_of_result {g : Geom} (h : LinearResult g) (n : NoOverlap (geomSegs g)) : ValidLinear g := by
  rcases h with rfl | ⟨r, rfl⟩ | ⟨m, rfl, hm⟩
  · trivial
  · exact n.1 r (by simp [geomSegs])
  · exact ⟨hm, n⟩

theorem noOverlap_of_wellJoined {l : List Segment} (h : WellJoined l) : NoOverlap l := ⟨h.1, h.2.imp fun k => k.1⟩

theorem noOverlap_of_fullyNoded {l : List Segment} (h : FullyNoded l) : NoOverlap l := ⟨h.1, h.2.imp fun k => k.1⟩

theorem valid_multisegmental {m : Multisegmental} (h : ValidLinear m.toGeom) :
    Constructed m ∧ NoOverlap m.segments := by
  cases m <;> exact h

/-- Multisegmental operands. -/
theorem apply_mm (ops : ShapedOps) (op : LinOp) {a b : Multisegmental} (ha : ValidLinear a.toGeom)
    (hb : ValidLinear b.toGeom) : ∃ g, op.apply ops a.toGeom b.toGeom = .ok g ∧ ValidLinear g ∧
      linPts g = reg (op.set (linPts a.toGeom) (linPts b.toGeom)) := by
  obtain ⟨ca, na⟩ := valid_multisegmental ha
  obtain ⟨cb, nb⟩ := valid_multisegmental hb
  rw [geomSegs_toGeom', geomSegs_toGeom']
  cases op with
  | intersection =>
    obtain ⟨g, e, r, p, n⟩ := C35_intersect ca cb na nb
    refine ⟨g, ?_, valid_of_result r (noOverlap_of_fullyNoded n), p⟩
    rw [← e]; cases a <;> cases b <;> rfl
  | union =>
    obtain ⟨g, e, r, _, p, n, _⟩ := C35_unite ca cb na nb
    refine ⟨g, ?_, valid_of_result r n, ?_⟩
    · rw [← e]; cases a <;> cases b <;> rfl
    · rw [p]
      show _ = reg (_ ∪ _)
      rw [← segsPts_append, reg_segsPts]
      intro s hs
      rcases List.mem_append.mp hs with h | h
      exacts [na.1 s h, nb.1 s h]
  | difference =>
    obtain ⟨g, e, r, p, n, _⟩ := C35_subtract ca cb na nb
    refine ⟨g, ?_, ?_, p⟩
    · rw [← e]; cases a <;> cases b <;> rfl
    · rcases r with rfl | r
      exacts [ha, valid_of_result r n]
  | symmetricDifference =>
    obtain ⟨g, e, r, p, n, _⟩ := C35_symmetric_subtract ca cb na nb
    refine ⟨g, ?_, valid_of_result r n, p⟩
    rw [← e]; cases a <;> cases b <;> rfl

/-- A segment and a multisegmental. -/
theorem apply_sm (ops : ShapedOps) (op : LinOp) {s : Segment} {m : Multisegmental} (hs : s.start ≠ s.end)
    (hm : ValidLinear m.toGeom) : ∃ g, op.apply ops (.segment s) m.toGeom = .ok g ∧ ValidLinear g ∧
      linPts g = reg (op.set (linPts (.segment s)) (linPts m.toGeom)) := by
  obtain ⟨cm, nm⟩ := valid_multisegmental hm
  rw [geomSegs_toGeom', linPts_segment]
  cases op with
  | intersection =>
    obtain ⟨g, e, r, p, _, n⟩ := (C09_intersect_multisegmental s m hs nm.1).1
    refine ⟨g, ?_, valid_of_result r (n nm), p⟩
    rw [← e]; cases m <;> rfl
  | union =>
    obtain ⟨g, e, r, _, p, _, _, n⟩ := (C10_unite_multisegmental s m hs nm.1 cm).1
    refine ⟨g, ?_, valid_of_result r (n nm), ?_⟩
    · rw [← e]; cases m <;> rfl
    · rw [p]
      show _ = reg (_ ∪ _)
      rw [← segsPts_cons, reg_segsPts]
      intro t ht
      rcases List.mem_cons.mp ht with rfl | h
      exacts [hs, nm.1 t h]
  | difference =>
    obtain ⟨g, e, r, p, n, _⟩ := C35_subtract_from_segment hs cm nm
    refine ⟨g, ?_, valid_of_result r n, p⟩
    rw [← e]; cases m <;> rfl
  | symmetricDifference =>
    obtain ⟨g, e, r, p, n, _⟩ := C35_symmetric_subtract_from_segment hs cm nm
    refine ⟨g, ?_, valid_of_result r n, p⟩
    rw [← e]; cases m <;> rfl

theorem apply_ms (ops : ShapedOps) (op : LinOp) {s : Segment} {m : Multisegmental} (hs : s.start ≠ s.end)
    (hm : ValidLinear m.toGeom) : ∃ g, op.apply ops m.toGeom (.segment s) = .ok g ∧ ValidLinear g ∧
      linPts g = reg (op.set (linPts m.toGeom) (linPts (.segment s))) := by
  obtain ⟨cm, nm⟩ := valid_multisegmental hm
  rw [geomSegs_toGeom', linPts_segment]
  cases op with
  | intersection =>
    obtain ⟨g, e, r, p, _, n⟩ := (C09_intersect_multisegmental s m hs nm.1).2
    refine ⟨g, ?_, valid_of_result r (n nm), ?_⟩
    · rw [← e]; cases m <;> rfl
    · rw [p, Set.inter_comm]; rfl
  | union =>
    obtain ⟨g, e, r, _, p, _, _, n⟩ := (C10_unite_multisegmental s m hs nm.1 cm).2
    refine ⟨g, ?_, valid_of_result r (n nm), ?_⟩
    · rw [← e]; cases m <;> rfl
    · rw [p]
      show _ = reg (_ ∪ _)
      rw [Set.union_comm, ← segsPts_single s, ← segsPts_append, reg_segsPts]
      intro t ht
      rcases List.mem_append.mp ht with h | h
      · exact nm.1 t h
      · rw [List.mem_singleton.mp h]; exact hs
  | difference =>
    obtain ⟨g, e, r, p, _, _, _, n⟩ := C11_subtract_multisegmental m s hs nm cm
    refine ⟨g, ?_, ?_, p⟩
    · rw [← e]; cases m <;> rfl
    · rcases r with rfl | r
      exacts [hm, valid_of_result r n]
  | symmetricDifference =>
    obtain ⟨g, e, r, p, n, _⟩ := C35_symmetric_subtract_segment hs cm nm
    refine ⟨g, ?_, valid_of_result r n, p⟩
    rw [← e]; cases m <;> rfl

theorem apply_ss (ops : ShapedOps) (op : LinOp) {s t : Segment} (hs : s.start ≠ s.end) (ht : t.start ≠ t.end) :
    ∃ g, op.apply ops (.segment s) (.segment t) = .ok g ∧ ValidLinear g ∧
      linPts g = reg (op.set (linPts (.segment s)) (linPts (.segment t))) := by
  rw [linPts_segment, linPts_segment]
  cases op with
  | intersection =>
    refine ⟨_, rfl, ?_, (C05_intersect_reg s t hs ht).1⟩
    rcases C05_intersect s t hs ht with ⟨e, _⟩ | ⟨r, e, hr, _⟩
    · rw [e]; trivial
    · rw [e]; exact hr
  | union =>
    obtain ⟨g, e, r, _, p, n⟩ := C06_unite s t hs ht
    refine ⟨g, e, valid_of_result r (noOverlap_of_wellJoined n), ?_⟩
    rw [p]
    show _ = reg (_ ∪ _)
    rw [← segsPts_single t, ← segsPts_cons, reg_segsPts]
    intro r hr
    rcases List.mem_cons.mp hr with rfl | h
    · exact hs
    · rw [List.mem_singleton.mp h]; exact ht
  | difference =>
    obtain ⟨g, e, r, p, _, _, _, n⟩ := C07_subtract s t hs ht
    exact ⟨g, e, valid_of_result r (noOverlap_of_wellJoined n), p⟩
  | symmetricDifference =>
    obtain ⟨g, _, e, _, r, p, _, _, n⟩ := C08_symmetric_subtract s t hs ht
    exact ⟨g, e, valid_of_result r (noOverlap_of_wellJoined n), p⟩


theorem reg_linPts {g : Geom} (h : ValidLinear g) : reg (linPts g) = linPts g := reg_segsPts h.noOverlap.1

theorem reg_empty : reg ∅ = ∅ := reg_atMostOne (by simp [AtMostOne])

/-- C43: every operator on every pair of valid linear geometries succeeds, gives a valid linear geometry (so that
it can be used as an operand again), whose points are exactly the regularised set combination. -/
theorem C43_operators (ops : ShapedOps) (op : LinOp) {a b : Geom} (ha : ValidLinear a) (hb : ValidLinear b) :
    ∃ g, op.apply ops a b = .ok g ∧ ValidLinear g ∧ linPts g = reg (op.set (linPts a) (linPts b)) := by
  have he : ∀ g, ValidLinear g → (∃ r, op.apply ops .empty g = .ok r ∧ ValidLinear r ∧
      linPts r = reg (op.set (linPts .empty) (linPts g))) := by
    intro g hg
    obtain ⟨k1, _, k3, _, k5, _, k7, _⟩ := C33_empty_operators ops g
    cases op with
    | intersection => exact ⟨_, k1, trivial, by simp [LinOp.set, linPts_empty, reg_empty]⟩
    | union => exact ⟨_, k3, hg, by simp [LinOp.set, linPts_empty, reg_linPts hg]⟩
    | difference => exact ⟨_, k5, trivial, by simp [LinOp.set, linPts_empty, reg_empty]⟩
    | symmetricDifference => exact ⟨_, k7, hg, by simp [LinOp.set, linPts_empty, reg_linPts hg]⟩
  have he' : ∀ g, ValidLinear g → (∃ r, op.apply ops g .empty = .ok r ∧ ValidLinear r ∧
      linPts r = reg (op.set (linPts g) (linPts .empty))) := by
    intro g hg
    obtain ⟨_, k2, _, k4, _, k6, _, k8⟩ := C33_empty_operators ops g
    cases op with
    | intersection => exact ⟨_, k2, trivial, by simp [LinOp.set, linPts_empty, reg_empty]⟩
    | union => exact ⟨_, k4, hg, by simp [LinOp.set, linPts_empty, reg_linPts hg]⟩
    | difference => exact ⟨_, k6, hg, by simp [LinOp.set, linPts_empty, reg_linPts hg]⟩
    | symmetricDifference => exact ⟨_, k8, hg, by simp [LinOp.set, linPts_empty, reg_linPts hg]⟩
  cases a with
  | polygon _ => exact ha.elim
  | multipolygon _ => exact ha.elim
  | empty => exact he b hb
  | segment s =>
    cases b with
    | polygon _ => exact hb.elim
    | multipolygon _ => exact hb.elim
    | empty => exact he' _ ha
    | segment t => exact apply_ss ops op ha hb
    | contour c => exact apply_sm ops op (m := .contour c) ha hb
    | multisegment m => exact apply_sm ops op (m := .multisegment m) ha hb
  | contour c =>
    cases b with
    | polygon _ => exact hb.elim
    | multipolygon _ => exact hb.elim
    | empty => exact he' _ ha
    | segment t => exact apply_ms ops op (m := .contour c) hb ha
    | contour d => exact apply_mm ops op (a := .contour c) (b := .contour d) ha hb
    | multisegment m => exact apply_mm ops op (a := .contour c) (b := .multisegment m) ha hb
  | multisegment m =>
    cases b with
    | polygon _ => exact hb.elim
    | multipolygon _ => exact hb.elim
    | empty => exact he' _ ha
    | segment t => exact apply_ms ops op (m := .multisegment m) hb ha
    | contour d => exact apply_mm ops op (a := .multisegment m) (b := .contour d) ha hb
    | multisegment n => exact apply_mm ops op (a := .multisegment m) (b := .multisegment n) ha hb

/-- An expression over the operators. -/
inductive LinExpr where
  | leaf (g : Geom)
  | node (op : LinOp) (left right : LinExpr)

/-- All operands are valid linear geometries. -/
def LinExpr.Valid : LinExpr → Prop
  | .leaf g => ValidLinear g
  | .node _ l r => l.Valid ∧ r.Valid

/-- What Python computes for the expression. -/
def LinExpr.eval (ops : ShapedOps) : LinExpr → Except Err Geom
  | .leaf g => .ok g
  | .node op l r => do op.apply ops (← l.eval ops) (← r.eval ops)

/-- The plain set expression. -/
def LinExpr.set : LinExpr → Set Point
  | .leaf g => linPts g
  | .node op l r => op.set l.set r.set

/-- C43: an expression of any size over valid linear geometries evaluates without an error to a valid linear geometry
which has the points of the set expression up to finitely many. -/
theorem C43_expressions (ops : ShapedOps) (e : LinExpr) (h : e.Valid) :
    ∃ g, e.eval ops = .ok g ∧ ValidLinear g ∧ SameUpToFinite (linPts g) e.set := by
  induction e with
  | leaf g => exact ⟨g, rfl, h, SameUpToFinite.rfl⟩
  | node op l r ihl ihr =>
    obtain ⟨a, ea, va, sa⟩ := ihl h.1
    obtain ⟨b, eb, vb, sb⟩ := ihr h.2
    obtain ⟨g, eg, vg, pg⟩ := C43_operators ops op va vb
    refine ⟨g, ?_, vg, ?_⟩
    · show (do op.apply ops (← l.eval ops) (← r.eval ops)) = _
      rw [ea, eb]; exact eg
    · rw [pg]
      exact (reg_op va.noOverlap vb.noOverlap op).trans (SameUpToFinite.op sa sb op)

/-- C43: valid linear geometries with the same points up to finitely many have the same points. -/
theorem C43_determined {a b : Geom} (ha : ValidLinear a) (hb : ValidLinear b)
    (h : SameUpToFinite (linPts a) (linPts b)) : linPts a = linPts b := by
  obtain ⟨F, h⟩ := h
  rw [← reg_linPts hb]
  exact reg_eq_of_finite ha.noOverlap.1 F (fun p hp hF => (h p hF).mp hp) (fun p hp hF => (h p hF).mpr hp)

/-- C43: every identity between set expressions (De Morgan laws, distributivity, `(a - b) | (a & b) = a`, ...) is an
identity between the computed geometries. -/
theorem C43_identities (ops : ShapedOps) {e f : LinExpr} (he : e.Valid) (hf : f.Valid)
    (h : SameUpToFinite e.set f.set) :
    ∃ a b, e.eval ops = .ok a ∧ f.eval ops = .ok b ∧ linPts a = linPts b := by
  obtain ⟨a, ea, va, sa⟩ := C43_expressions ops e he
  obtain ⟨b, eb, vb, sb⟩ := C43_expressions ops f hf
  exact ⟨a, b, ea, eb, C43_determined va vb ((sa.trans h).trans sb.symm)⟩

/-- C43: `a = (a - b) | (a & b)` and `a ^ b = (a | b) - (a & b)` as point sets. -/
theorem C43_partition (ops : ShapedOps) {a b : Geom} (ha : ValidLinear a) (hb : ValidLinear b) :
    ∃ d i u, Geom.sub ops a b = .ok d ∧ Geom.and ops a b = .ok i ∧ Geom.or ops d i = .ok u ∧
      linPts u = linPts a := by
  obtain ⟨d, ed, vd, _⟩ := C43_operators ops .difference ha hb
  obtain ⟨i, ei, vi, _⟩ := C43_operators ops .intersection ha hb
  obtain ⟨u, eu, vu, _⟩ := C43_operators ops .union vd vi
  refine ⟨d, i, u, ed, ei, eu, ?_⟩
  obtain ⟨x, y, ex, ey, e⟩ := C43_identities ops (e := .node .union (.node .difference (.leaf a) (.leaf b))
    (.node .intersection (.leaf a) (.leaf b))) (f := .leaf a) ⟨⟨ha, hb⟩, ⟨ha, hb⟩⟩ ha
    (by
      have : LinOp.union.set (LinOp.difference.set (linPts a) (linPts b)) (LinOp.intersection.set (linPts a) (linPts b))
          = linPts a := by
        simp only [LinOp.set]; exact Set.diff_union_inter _ _
      show SameUpToFinite (LinOp.union.set (LinOp.difference.set (linPts a) (linPts b))
        (LinOp.intersection.set (linPts a) (linPts b))) (linPts a)
      rw [this]; exact SameUpToFinite.rfl)
  have hx : (do LinOp.union.apply ops (← LinOp.difference.apply ops a b) (← LinOp.intersection.apply ops a b))
      = Except.ok x := ex
  rw [ed, ei] at hx
  have hx' : LinOp.union.apply ops d i = Except.ok x := hx
  rw [eu] at hx'
  cases hx'
  cases ey
  exact e

/-- C43: the operands of `&`, `|` and `^` may be exchanged. -/
theorem C43_commutative (ops : ShapedOps) {a b : Geom} (ha : ValidLinear a) (hb : ValidLinear b) (op : LinOp)
    (hop : op ≠ .difference) : ∃ x y, op.apply ops a b = .ok x ∧ op.apply ops b a = .ok y ∧
      linPts x = linPts y := by
  obtain ⟨x, ex, _, px⟩ := C43_operators ops op ha hb
  obtain ⟨y, ey, _, py⟩ := C43_operators ops op hb ha
  refine ⟨x, y, ex, ey, ?_⟩
  rw [px, py]
  cases op with
  | difference => exact (hop rfl).elim
  | intersection => rw [LinOp.set, LinOp.set, Set.inter_comm]
  | union => rw [LinOp.set, LinOp.set, Set.union_comm]
  | symmetricDifference => rw [LinOp.set, LinOp.set, Set.union_comm]

/-- The hypotheses hold for a square and a crossing polyline, which have a common piece. -/
example : ValidLinear (.contour ⟨[⟨0, 0⟩, ⟨4, 0⟩, ⟨4, 4⟩, ⟨0, 4⟩]⟩) ∧
    ValidLinear (.multisegment ⟨[⟨⟨1, -1⟩, ⟨1, 5⟩⟩, ⟨⟨2, 0⟩, ⟨6, 0⟩⟩]⟩) :=
  ⟨⟨by decide, noOverlap_of_empty (by decide +kernel)⟩, ⟨by decide, noOverlap_of_empty (by decide +kernel)⟩⟩

/-- A geometry as accepted by `is_valid` as far as the vertices of its contours are concerned. -/
def Spec.ProperGeom : Geom → Prop
  | .contour c => Spec.ProperContour c
  | .polygon p => Spec.ProperPolygon p
  | .multipolygon m => ∀ p ∈ m.polygons, Spec.ProperPolygon p
  | _ => True

/-- The class of a geometry. -/
def Spec.kindOf : Geom → ℕ
  | .empty => 0
  | .segment _ => 1
  | .contour _ => 2
  | .multisegment _ => 3
  | .polygon _ => 4
  | .multipolygon _ => 5

/-- C20: `==` on geometries of any classes is an equivalence relation and never identifies geometries of different
classes. -/
theorem C20_geometry_eq (a b d : Geom) (ha : Spec.ProperGeom a) (hb : Spec.ProperGeom b) (hd : Spec.ProperGeom d) :
    a.eqB a = true ∧ a.eqB b = b.eqB a ∧ (a.eqB b = true → b.eqB d = true → a.eqB d = true) ∧
    (a.eqB b = true → Spec.kindOf a = Spec.kindOf b) := by
  have cc : ∀ c : Contour, Spec.ProperContour c → c.vertices ≠ [] ∧ c.vertices.Nodup := by
    intro c hc
    refine ⟨?_, hc.2.1⟩
    intro h
    have := hc.1
    rw [h] at this
    simp at this
  refine ⟨?_, ?_, ?_, ?_⟩
  · cases a with
    | empty => rfl
    | segment a => exact C17_segment_eq_equivalence.refl a
    | contour a => exact C18_contour_eq_equivalence.refl ⟨a, cc a ha⟩
    | multisegment a => exact C20_multisegment_eq_equivalence.refl a
    | polygon a => exact (C20_polygon_eq a a ha ha).1.mpr ⟨rfl, rfl⟩
    | multipolygon a => exact (C20_multipolygon_eq a a a ha ha ha).2.2.1
  · rw [Bool.eq_iff_iff]
    cases a <;> cases b <;> try rfl
    case segment.segment a b => exact ⟨C17_segment_eq_equivalence.symm, C17_segment_eq_equivalence.symm⟩
    case contour.contour a b =>
      exact ⟨fun h => C18_contour_eq_equivalence.symm (x := ⟨a, cc a ha⟩) (y := ⟨b, cc b hb⟩) h,
        fun h => C18_contour_eq_equivalence.symm (x := ⟨b, cc b hb⟩) (y := ⟨a, cc a ha⟩) h⟩
    case multisegment.multisegment a b =>
      exact ⟨C20_multisegment_eq_equivalence.symm, C20_multisegment_eq_equivalence.symm⟩
    case polygon.polygon a b =>
      show a.eqB b = true ↔ b.eqB a = true
      rw [(C20_polygon_eq a b ha hb).1, (C20_polygon_eq b a hb ha).1, eq_comm, @eq_comm _ a.hashKey]
    case multipolygon.multipolygon a b =>
      exact ⟨(C20_multipolygon_eq a b b ha hb hb).2.2.2.1, (C20_multipolygon_eq b a a hb ha ha).2.2.2.1⟩
  · cases a <;> cases b <;> (try (intro h; cases h; done)) <;> cases d <;> (try (intro _ h; cases h; done))
    case empty.empty.empty => exact fun _ _ => rfl
    case segment.segment.segment a b d => exact C17_segment_eq_equivalence.trans
    case contour.contour.contour a b d =>
      exact fun h k => C18_contour_eq_equivalence.trans (x := ⟨a, cc a ha⟩) (y := ⟨b, cc b hb⟩)
        (z := ⟨d, cc d hd⟩) h k
    case multisegment.multisegment.multisegment a b d => exact C20_multisegment_eq_equivalence.trans
    case polygon.polygon.polygon a b d =>
      show a.eqB b = true → b.eqB d = true → a.eqB d = true
      rw [(C20_polygon_eq a b ha hb).1, (C20_polygon_eq b d hb hd).1, (C20_polygon_eq a d ha hd).1]
      exact fun h k => ⟨h.1.trans k.1, h.2.trans k.2⟩
    case multipolygon.multipolygon.multipolygon a b d => exact (C20_multipolygon_eq a b d ha hb hd).2.2.2.2
  · cases a <;> cases b <;> first | exact fun _ => rfl | (intro h; cases h; done)

example : Spec.ProperGeom (.contour ⟨[⟨0, 0⟩, ⟨9, 0⟩, ⟨9, 9⟩, ⟨0, 9⟩]⟩) := by
  unfold Spec.ProperGeom Spec.ProperContour
  decide +kernel

end Rene
