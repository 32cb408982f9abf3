import Verif.Lemmas.Sweep.ShpRelSets
import Verif.Lemmas.RelateMulti
import Verif.Lemmas.ShapedOps
import Verif.Spec.ShapedRelation

/-! # The relation of two shapes: the points -/

namespace Rene.Sweep
open Rene.Face Finset Spec

section
variable {ε : ℚ} {first second : List Segment} {R1 R2 : Set Point}

theorem inOp_kept (g : (ctxOf first second ε).Good) (b : Bool) (z : Point) :
    InOp (ctxOf first second ε) b z ↔ z ∈ segsPts (kept first second b) := by
  cases b
  · exact inOp_false g z
  · exact inOp_true g z

theorem dpar_kept (g : (ctxOf first second ε).Good) (b : Bool) (z : Point) :
    dpar (ctxOf first second ε) b z = downParity ε z (kept first second b) := by
  unfold dpar downParity
  refine par_filter b fun j => ?_
  rw [mem_lowE, below_iff]
  refine and_congr_right fun hj => ?_
  have hA : (ctxOf first second ε).A j = lo (segAt (first ++ second) j) := rfl
  have hB : (ctxOf first second ε).B j = hi (segAt (first ++ second) j) := rfl
  have hlt := g.lt j hj
  have e := Ctx.cr_on (c := ctxOf first second ε) (q := z) (g.onA j hj) (g.onB j hj)
  rw [hA, hB] at e hlt
  unfold Spans
  rw [hA, hB, and_assoc]
  refine and_congr_right fun _ => and_congr_right fun _ => ?_
  rw [e]
  constructor
  · intro k; exact mul_pos (by linarith) (by linarith)
  · intro k
    by_contra q
    have := mul_nonneg_of_nonpos_of_nonpos (a := z.y - (ctxOf first second ε).f j ((ctxOf first second ε).X z))
      (b := -((ctxOf first second ε).X (hi (segAt (first ++ second) j)) - (ctxOf first second ε).X (lo (segAt (first ++ second) j))))
      (by linarith) (by linarith)
    linarith

theorem inn_kept (g : (ctxOf first second ε).Good) {b : Bool} {R : Set Point} (e : Edges ε (kept first second b) R) (z : Point) :
    Inn (ctxOf first second ε) b z ↔ z ∉ segsPts (kept first second b) ∧ z ∈ R := by
  unfold Inn
  rw [inOp_kept g, dpar_kept g]
  exact and_congr_right fun k => e.off z k
end

/-! ### Lists of polygons -/

theorem locate_exterior {l : List Polygon} {z : Point} : locateInPolygons z l = .exterior ↔ ∀ p ∈ l, p.locate z = .exterior :=
  (C24_multipolygon_locate ⟨l⟩ z).1

theorem locate_interior {l : List Polygon} (h : ValidPolygons l) {z : Point} :
    locateInPolygons z l = .interior ↔ z ∈ insidePts l := by
  rw [show locateInPolygons z l = Multipolygon.locate ⟨l⟩ z from rfl, (C24_multipolygon_locate ⟨l⟩ z).2 _ (by decide)]
  constructor
  · rintro ⟨A, p, B, e, hp, _⟩
    have e : l = A ++ p :: B := e
    exact ⟨p, by rw [e]; simp, hp⟩
  · rintro ⟨p, hp, hz⟩
    obtain ⟨A, B, e⟩ := List.append_of_mem hp
    refine ⟨A, p, B, e, hz, fun k hk => ?_⟩
    have h3 := h.2.2
    rw [e, List.pairwise_append] at h3
    have := (h3.2.2 k hk p (by simp) z).2
    by_contra q
    exact this ⟨hz, q⟩

theorem edges_not_inside {l : List Polygon} (h : ValidPolygons l) {z : Point} (hz : z ∈ segsPts (edgesOf l)) :
    z ∉ insidePts l := by
  rintro ⟨p, hp, k⟩
  obtain ⟨r, hr, hz⟩ := (segsPts_flatMap _ _ _).mp hz
  have hb := polygon_boundary_of_mem (h.1 r hr) hz
  by_cases e : p = r
  · rw [e, hb] at k; cases k
  obtain ⟨A, B, hAB⟩ := List.append_of_mem hp
  have h3 := h.2.2
  rw [hAB] at h3
  have hr' : r ∈ A ++ B := by
    rw [hAB] at hr
    simp only [List.mem_append, List.mem_cons] at hr ⊢
    rcases hr with q | q | q
    · exact Or.inl q
    · exact absurd q.symm e
    · exact Or.inr q
  rcases pairwise_split h3 hr' with q | q
  · exact (q z).1 ⟨k, by rw [hb]; decide⟩
  · exact (q z).2 ⟨k, by rw [hb]; decide⟩

theorem locate_boundary {l : List Polygon} (h : ValidPolygons l) {z : Point} :
    locateInPolygons z l = .boundary ↔ z ∈ segsPts (edgesOf l) := by
  have key := polygons_pts h z
  have ex := locate_exterior (l := l) (z := z)
  have hi := locate_interior h (z := z)
  have hd := edges_not_inside h (z := z)
  have ne : (∃ p ∈ l, z ∈ polygonPts p) ↔ locateInPolygons z l ≠ .exterior := by
    rw [Ne, ex]; push Not; rfl
  rw [ne] at key
  change _ ↔ z ∈ segsPts (edgesOf l) ∨ _ at key
  rcases hl : locateInPolygons z l with _ | _ | _ <;> rw [hl] at key hi
  · simp only [ne_eq, reduceCtorEq, not_false_iff, true_iff, false_iff] at key hi
    simp only [true_iff]
    exact key.resolve_right hi
  · simp only [ne_eq, not_true, false_iff, not_or] at key
    simp [key.1]
  · simp only [true_iff] at hi
    simp only [reduceCtorEq, false_iff]
    exact fun k => hd k hi

/-- Where the points are relative to polygons. -/
def loc (l : List Polygon) (z : Point) : Location := locateInPolygons z l

/-- The meaning of the outcome, where `P` tells which operand is a part of the other one. -/
def PreRel (P : Bool → Prop) (L : Bool → Point → Location) : Relation → Prop
  | .disjoint => ∀ z, ¬ (z ∈ region (L true) ∧ z ∈ region (L false))
  | .touch => (outline (L true) ∩ outline (L false)).Nonempty ∧ inner (L true) ∩ inner (L false) = ∅ ∧ ¬ P true ∧ ¬ P false
  | .cross => False
  | .overlap => (inner (L true) ∩ inner (L false)).Nonempty ∧ ¬ P true ∧ ¬ P false
  | .cover => P false ∧ ¬ P true ∧ region (L false) ⊆ inner (L true)
  | .encloses => P false ∧ ¬ P true ∧ (outline (L false) ∩ outline (L true)).Nonempty ∧
      (outline (L false) ∩ inner (L true)).Nonempty
  | .composite => P false ∧ ¬ P true ∧ outline (L false) ⊆ outline (L true)
  | .equal => P true ∧ P false
  | .component => P true ∧ ¬ P false ∧ outline (L true) ⊆ outline (L false)
  | .enclosed => P true ∧ ¬ P false ∧ (outline (L true) ∩ outline (L false)).Nonempty ∧
      (outline (L true) ∩ inner (L false)).Nonempty
  | .within => P true ∧ ¬ P false ∧ region (L true) ⊆ inner (L false)

theorem preRel_of {c : Ctx} {P P' : Bool → Prop} {L : Bool → Point → Location} {r : Relation}
    (hE : ∀ b z, InOp c b z ↔ z ∈ outline (L b)) (hI : ∀ b z, Inn c b z ↔ z ∈ inner (L b)) (hP : ∀ b, P b ↔ P' b)
    (h : CtxRel c P r) : PreRel P' L r := by
  have hC : ∀ b z, Cl c b z ↔ z ∈ region (L b) := by
    intro b z
    unfold Cl
    rw [hE, hI]
    unfold outline inner region
    simp only [Set.mem_setOf_eq]
    cases L b z <;> simp
  have hm : Meet c ↔ (outline (L true) ∩ outline (L false)).Nonempty := by
    unfold Meet
    refine exists_congr fun z => ?_
    rw [Bool.forall_bool, hE, hE, and_comm]; rfl
  have hi : (∃ z, ∀ b, z ∈ inner (L b)) ↔ (inner (L true) ∩ inner (L false)).Nonempty := by
    refine exists_congr fun z => ?_
    rw [Bool.forall_bool, and_comm]; rfl
  have hb : ∀ b, (∃ z, InOp c b z ∧ Inn c (!b) z) ↔ (outline (L b) ∩ inner (L (!b))).Nonempty := by
    intro b
    refine exists_congr fun z => ?_
    rw [hE, hI]; rfl
  have h0 : ∀ {α : Type} {s t : Set α}, (s ∩ t).Nonempty ↔ (t ∩ s).Nonempty := by
    intro α s t; rw [Set.inter_comm]
  cases r <;> simp only [CtxRel, PreRel, ← hP, hC, hI, hE, hm, hi, hb, Set.not_nonempty_iff_eq_empty] at h ⊢
  all_goals first
    | exact h
    | (obtain ⟨a, b, m, d⟩ := h
       refine ⟨a, b, ?_, ?_⟩
       · first | exact m | (rw [h0]; exact m)
       · first | exact (hb true).mp d | exact (hb false).mp d | exact d)

/-- The edges of a polygon which goes around its area. -/
theorem oriented_segments {c : Contour} {t : Orientation} (h : c.orientation = t) :
    toOrientedSegments c.vertices t = c.segments := by
  unfold toOrientedSegments
  have h : toContourOrientation c.vertices (toArgMin c.vertices) = t := h
  rw [if_pos h]; rfl

theorem polygon_segments {p : Polygon} (h : Oriented p) :
    p.border.segments ++ p.holes.flatMap Contour.segments = p.correctlyOrientedSegments := by
  unfold Polygon.correctlyOrientedSegments
  rw [oriented_segments h.1]
  congr 1
  exact List.flatMap_congr fun k hk => (oriented_segments (h.2 k hk)).symm

theorem border_point {p : Polygon} (h : ValidPolygon p) : ∃ z, z ∈ segsPts p.correctlyOrientedSegments := by
  have h3 := (h.1 p.border (by simp [polygonContours])).1
  obtain ⟨z, hz, -⟩ := (contour_tight p.border (by intro e; rw [e] at h3; simp at h3)).2.1
  refine ⟨z, ?_⟩
  rw [segsPts_of_sets (polygon_sets h), segsPts_flatMap]
  exact ⟨p.border, by simp [polygonContours], hz⟩

/-- The sweep over the edges of two lists of polygons. -/
theorem toRelation_lists {l1 l2 : List Polygon} (v1 : ValidPolygons l1) (v2 : ValidPolygons l2) (ne1 : l1 ≠ []) (ne2 : l2 ≠ [])
    (fs ss : Bool) {m : ℚ} (hm : (∀ z ∈ segsPts (edgesOf l1), z.x ≤ m) ∨ ∀ z ∈ segsPts (edgesOf l2), z.x ≤ m) :
    ∃ r, (Shp.init (edgesOf l1) (edgesOf l2)).toRelation ((edgesOf l1).length + (edgesOf l2).length) fs ss m = .ok r ∧
      PreRel (fun b => (if b then fs else ss) = true ∧
        region (loc (if b then l1 else l2)) ⊆ region (loc (if b then l2 else l1)))
        (fun b => loc (if b then l1 else l2)) r := by
  have n1 := edges_noOverlap v1
  have n2 := edges_noOverlap v2
  obtain ⟨V, hV⟩ : ∃ V : Finset Point, V = points (edgesOf l1 ++ edgesOf l2) ∪
    ((l1 ++ l2).flatMap fun p => (polygonContours p).flatMap Contour.vertices).toFinset := ⟨_, rfl⟩
  obtain ⟨ε, hg⟩ := exists_gen V
  have gP : ∀ v ∈ points (edgesOf l1 ++ edgesOf l2), v ∈ V := fun v hv => by
    rw [hV]; exact Finset.mem_union_left _ hv
  have gv : ∀ p ∈ l1 ++ l2, ∀ c ∈ polygonContours p, ∀ v ∈ c.vertices, v ∈ V := by
    intro p hp c hc v hv
    rw [hV]
    simp only [Finset.mem_union, List.mem_toFinset]
    exact Or.inr (List.mem_flatMap.mpr ⟨p, hp, List.mem_flatMap.mpr ⟨c, hc, hv⟩⟩)
  clear hV
  have g : (ctxOf (edgesOf l1) (edgesOf l2) ε).Good := by
    refine good_of_eps n1 n2 fun u hu huv => ?_
    rw [Finset.mem_product] at hu
    exact hg _ (gP _ hu.1) _ (gP _ hu.2) huv
  have E1 : Edges ε (edgesOf l1) (insidePts l1) := polygons_edges v1 fun p hp c hc u hu v hv' huv =>
    hg _ (gv p (List.mem_append_left _ hp) c hc u hu) _ (gv p (List.mem_append_left _ hp) c hc v hv') huv
  have E2 : Edges ε (edgesOf l2) (insidePts l2) := polygons_edges v2 fun p hp c hc u hu v hv' huv =>
    hg _ (gv p (List.mem_append_right _ hp) c hc u hu) _ (gv p (List.mem_append_right _ hp) c hc v hv') huv
  have hsome : ∀ {l : List Polygon}, ValidPolygons l → l ≠ [] → ∃ z, z ∈ segsPts (edgesOf l) := by
    intro l v hn
    obtain ⟨p, hp⟩ := List.exists_mem_of_ne_nil l hn
    obtain ⟨z, hz⟩ := border_point (v.1 p hp)
    exact ⟨z, (segsPts_flatMap _ _ _).mpr ⟨p, hp, hz⟩⟩
  have hne : edgesOf l1 ++ edgesOf l2 ≠ [] := by
    obtain ⟨z, s, hs, _⟩ := hsome v1 ne1
    intro e
    rw [(List.append_eq_nil_iff.mp e).1] at hs
    cases hs
  obtain ⟨b0, hb0⟩ : ∃ b0, ∀ z, InOp (ctxOf (edgesOf l1) (edgesOf l2) ε) b0 z → z.x ≤ m := by
    rcases hm with k | k
    · exact ⟨true, fun z hz => k z ((inOp_kept g true z).mp hz)⟩
    · exact ⟨false, fun z hz => k z ((inOp_kept g false z).mp hz)⟩
  obtain ⟨st, hst, hrun⟩ := toRelation_run g E1 E2 n1 n2 hne fs ss hb0
  refine ⟨_, hrun, ?_⟩
  have hrel := relation_sets g (duo g E1 E2 n1 n2).dir hst fun b => by
    cases b
    · obtain ⟨z, hz⟩ := hsome v2 ne2; exact ⟨z, (inOp_kept g false z).mpr hz⟩
    · obtain ⟨z, hz⟩ := hsome v1 ne1; exact ⟨z, (inOp_kept g true z).mpr hz⟩
  have hE : ∀ b z, InOp (ctxOf (edgesOf l1) (edgesOf l2) ε) b z ↔ z ∈ outline (loc (if b then l1 else l2)) := by
    intro b z
    rw [inOp_kept g]
    cases b
    · exact (locate_boundary v2).symm
    · exact (locate_boundary v1).symm
  have hI : ∀ b z, Inn (ctxOf (edgesOf l1) (edgesOf l2) ε) b z ↔ z ∈ inner (loc (if b then l1 else l2)) := by
    intro b z
    cases b
    · rw [inn_kept g (b := false) E2]
      refine Iff.trans ?_ (locate_interior v2).symm
      exact and_iff_right_of_imp fun k q => edges_not_inside v2 q k
    · rw [inn_kept g (b := true) E1]
      refine Iff.trans ?_ (locate_interior v1).symm
      exact and_iff_right_of_imp fun k q => edges_not_inside v1 q k
  have hC : ∀ b z, Cl (ctxOf (edgesOf l1) (edgesOf l2) ε) b z ↔ z ∈ region (loc (if b then l1 else l2)) := by
    intro b z
    unfold Cl
    rw [hE, hI]
    unfold outline inner region
    simp only [Set.mem_setOf_eq]
    cases loc (if b then l1 else l2) z <;> simp
  refine preRel_of hE hI (fun b => ?_) hrel
  refine and_congr (by cases b <;> exact Iff.rfl) ?_
  simp only [hC]
  cases b <;> exact Iff.rfl

end Rene.Sweep
