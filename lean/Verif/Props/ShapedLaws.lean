import Verif.Props.ShapedRegular

/-! # C60: laws of the boolean operations

Swapping the operands of `&`, `|` and `^` does not change where any point is located; `a & a` and `a | a` locate every
point as `a` does; `a - a` and `a ^ a` are the empty geometry.  `SameLocations` is that of `Verif/Spec/Shaped.lean`. -/

namespace Rene
open Spec Rene.Sweep

section
variable {p r : Polygon} {m n : Multipolygon}

theorem endsOff_self {l : List Segment} (h : FullyNoded l) : EndsOff l l := by
  have key : ∀ s ∈ l, ∀ t ∈ l, ∀ q, q = t.start ∨ q = t.end → q ∉ openSeg s.start s.end := by
    intro s hs t ht q hq k
    obtain ⟨k1, k2, k3⟩ := (mem_openSeg_iff (h.1 s hs)).mp k
    by_cases e : s = t
    · subst e
      rcases hq with z | z
      · exact k2 z
      · exact k3 z
    · have hqt : q ∈ segPts t := by
        rcases hq with z | z <;> rw [z]
        · exact start_mem_seg _ _
        · exact end_mem_seg _ _
      haveI : Std.Symm Noded := ⟨fun _ _ z => ⟨apart_symm z.1, fun p a b => (z.2 p b a).symm⟩⟩
      rcases ((h.2.forall hs ht e).2 q k1 hqt).1 with z | z
      · exact k2 z
      · exact k3 z
  exact fun s hs t ht => ⟨key s hs t ht _ (Or.inl rfl), key s hs t ht _ (Or.inr rfl)⟩

theorem clean_self {l : List Polygon} (h : FullyNoded (outlineEdges l)) : CleanOperands l l :=
  clean_of_verticesOff ⟨h, h, endsOff_self h, endsOff_self h⟩

theorem collect_full {l : List Polygon} {x : Multipolygon} (h : collectMaybeEmptyPolygons l = .ok (.multipolygon x)) :
    x.polygons ≠ [] := by
  rcases l with _ | ⟨a, _ | ⟨b, l⟩⟩
  · cases h
  · cases h
  · have : collectMaybeEmptyPolygons (a :: b :: l) = .ok (.multipolygon ⟨a :: b :: l⟩) := rfl
    rw [this] at h
    cases h
    simp

theorem bind_full {r : Except Err (List Polygon)} {F : List Polygon → List Polygon} {x : Multipolygon}
    (h : (r.bind fun ps => collectMaybeEmptyPolygons (F ps)) = .ok (.multipolygon x)) : x.polygons ≠ [] := by
  rcases r with e | ps
  · cases h
  · exact collect_full h

theorem new_full {l : List Polygon} {x : Multipolygon}
    (h : (do let a ← Multipolygon.new l; return Geom.multipolygon a) = (.ok (.multipolygon x) : Except Err Geom)) :
    x.polygons ≠ [] := by
  unfold Multipolygon.new at h
  by_cases k : l.length < 2
  · rw [if_pos k] at h; cases h
  · rw [if_neg k] at h
    cases h
    rintro rfl
    simp at k

/-! ### Swapped operands -/

/-- C60 `polygon & polygon`, swapped. -/
theorem C60_intersect_swap_polygon_polygon (h1 : ValidPolygon p) (h2 : ValidPolygon r) (ho : CleanOperands [p] [r]) :
    SameLocations (intersectPolygonWithPolygon p r) (intersectPolygonWithPolygon r p) :=
  same_of_swap (fun _ _ => and_comm) (C59_intersect_polygon_polygon h1 h2 ho) (C59_intersect_polygon_polygon h2 h1 (clean_symm ho))

/-- C60 `polygon & multipolygon`, swapped. -/
theorem C60_intersect_swap_polygon_multipolygon (h1 : ValidPolygon p) (h2 : ValidPolygons n.polygons)
    (ho : CleanOperands [p] n.polygons) :
    SameLocations (intersectPolygonWithMultipolygon p n) (intersectMultipolygonWithPolygon n p) :=
  same_of_swap (fun _ _ => and_comm) (C59_intersect_polygon_multipolygon h1 h2 ho)
    (C59_intersect_multipolygon_polygon h2 h1 (clean_symm ho))

/-- C60 `multipolygon & multipolygon`, swapped. -/
theorem C60_intersect_swap_multipolygon_multipolygon (h1 : ValidPolygons m.polygons) (h2 : ValidPolygons n.polygons)
    (ho : CleanOperands m.polygons n.polygons) :
    SameLocations (intersectMultipolygonWithMultipolygon m n) (intersectMultipolygonWithMultipolygon n m) :=
  same_of_swap (fun _ _ => and_comm) (C59_intersect_multipolygon_multipolygon h1 h2 ho)
    (C59_intersect_multipolygon_multipolygon h2 h1 (clean_symm ho))

/-- C60 `polygon | polygon`, swapped. -/
theorem C60_unite_swap_polygon_polygon (h1 : ValidPolygon p) (h2 : ValidPolygon r) (ho : CleanOperands [p] [r]) :
    SameLocations (unitePolygonWithPolygon p r) (unitePolygonWithPolygon r p) :=
  same_of_swap (fun _ _ => or_comm) (C59_unite_polygon_polygon h1 h2 ho) (C59_unite_polygon_polygon h2 h1 (clean_symm ho))

/-- C60 `polygon | multipolygon`, swapped. -/
theorem C60_unite_swap_polygon_multipolygon (h1 : ValidPolygon p) (h2 : ValidPolygons n.polygons) (c2 : 2 ≤ n.polygons.length)
    (ho : CleanOperands [p] n.polygons) :
    SameLocations (unitePolygonWithMultipolygon p n) (uniteMultipolygonWithPolygon n p) :=
  same_of_swap (fun _ _ => or_comm) (C59_unite_polygon_multipolygon h1 h2 c2 ho)
    (C59_unite_multipolygon_polygon h2 h1 c2 (clean_symm ho))

/-- C60 `multipolygon | multipolygon`, swapped. -/
theorem C60_unite_swap_multipolygon_multipolygon (h1 : ValidPolygons m.polygons) (h2 : ValidPolygons n.polygons)
    (c1 : 2 ≤ m.polygons.length) (c2 : 2 ≤ n.polygons.length) (ho : CleanOperands m.polygons n.polygons) :
    SameLocations (uniteMultipolygonWithMultipolygon m n) (uniteMultipolygonWithMultipolygon n m) :=
  same_of_swap (fun _ _ => or_comm) (C59_unite_multipolygon_multipolygon h1 h2 c1 c2 ho)
    (C59_unite_multipolygon_multipolygon h2 h1 c2 c1 (clean_symm ho))

/-- C60 `polygon ^ polygon`, swapped. -/
theorem C60_symmetric_subtract_swap_polygon_polygon (h1 : ValidPolygon p) (h2 : ValidPolygon r) (ho : CleanOperands [p] [r]) :
    SameLocations (symmetricSubtractPolygonFromPolygon p r) (symmetricSubtractPolygonFromPolygon r p) :=
  same_of_swap (fun _ _ => or_comm) (C59_symmetric_subtract_polygon_polygon h1 h2 ho) (C59_symmetric_subtract_polygon_polygon h2 h1 (clean_symm ho))

/-- C60 `polygon ^ multipolygon`, swapped. -/
theorem C60_symmetric_subtract_swap_polygon_multipolygon (h1 : ValidPolygon p) (h2 : ValidPolygons n.polygons) (c2 : 2 ≤ n.polygons.length)
    (ho : CleanOperands [p] n.polygons) :
    SameLocations (symmetricSubtractMultipolygonFromPolygon p n) (symmetricSubtractPolygonFromMultipolygon n p) :=
  same_of_swap (fun _ _ => or_comm) (C59_symmetric_subtract_polygon_multipolygon h1 h2 c2 ho)
    (C59_symmetric_subtract_multipolygon_polygon h2 h1 c2 (clean_symm ho))

/-- C60 `multipolygon ^ multipolygon`, swapped. -/
theorem C60_symmetric_subtract_swap_multipolygon_multipolygon (h1 : ValidPolygons m.polygons) (h2 : ValidPolygons n.polygons)
    (c1 : 2 ≤ m.polygons.length) (c2 : 2 ≤ n.polygons.length) (ho : CleanOperands m.polygons n.polygons) :
    SameLocations (symmetricSubtractMultipolygonFromMultipolygon m n) (symmetricSubtractMultipolygonFromMultipolygon n m) :=
  same_of_swap (fun _ _ => or_comm) (C59_symmetric_subtract_multipolygon_multipolygon h1 h2 c1 c2 ho)
    (C59_symmetric_subtract_multipolygon_multipolygon h2 h1 c2 c1 (clean_symm ho))

/-! ### An operand with itself -/

/-- C60 `polygon & polygon`, the same operand twice. -/
theorem C60_intersect_self_polygon (h1 : ValidPolygon p) (hf : FullyNoded (outlineEdges [p])) :
    SameLocations (intersectPolygonWithPolygon p p) (.ok (.polygon p)) :=
  same_of_self (fun _ => and_self_iff) (validPolygons_single h1)
    (C59_intersect_polygon_polygon h1 h1 (clean_self hf)) rfl

/-- C60 `multipolygon & multipolygon`, the same operand twice. -/
theorem C60_intersect_self_multipolygon (h1 : ValidPolygons m.polygons) (hf : FullyNoded (outlineEdges m.polygons)) :
    SameLocations (intersectMultipolygonWithMultipolygon m m) (.ok (.multipolygon m)) :=
  same_of_self (fun _ => and_self_iff) h1 (C59_intersect_multipolygon_multipolygon h1 h1 (clean_self hf)) rfl

/-- C60 `polygon | polygon`, the same operand twice. -/
theorem C60_unite_self_polygon (h1 : ValidPolygon p) (hf : FullyNoded (outlineEdges [p])) :
    SameLocations (unitePolygonWithPolygon p p) (.ok (.polygon p)) :=
  same_of_self (fun _ => or_self_iff) (validPolygons_single h1)
    (C59_unite_polygon_polygon h1 h1 (clean_self hf)) rfl

/-- C60 `multipolygon | multipolygon`, the same operand twice. -/
theorem C60_unite_self_multipolygon (h1 : ValidPolygons m.polygons) (c1 : 2 ≤ m.polygons.length) (hf : FullyNoded (outlineEdges m.polygons)) :
    SameLocations (uniteMultipolygonWithMultipolygon m m) (.ok (.multipolygon m)) :=
  same_of_self (fun _ => or_self_iff) h1 (C59_unite_multipolygon_multipolygon h1 h1 c1 c1 (clean_self hf)) rfl

/-- C60 `polygon - polygon`, the same operand twice. -/
theorem C60_subtract_self_polygon (h1 : ValidPolygon p) (hf : FullyNoded (outlineEdges [p])) :
    subtractPolygonFromPolygon p p = .ok .empty := by
  refine empty_of (fun _ k => k.2 k.1) (C59_subtract_polygon_polygon h1 h1 (clean_self hf))
    (C58_subtract_polygon_polygon h1 h1 (clean_self hf)) fun x hx => ?_
  have e : subtractPolygonFromPolygon p p =
      if doBoxesHaveNoCommonArea p.boundingBox p.boundingBox = true then .ok (.polygon p) else
      (ShpOp.difference.run _ _ _).bind fun ps => collectMaybeEmptyPolygons (ps) := rfl
  rw [e] at hx
  by_cases k0 : doBoxesHaveNoCommonArea p.boundingBox p.boundingBox = true
  · rw [if_pos k0] at hx; cases hx
  · rw [if_neg k0] at hx; exact bind_full (F := id) hx

/-- C60 `multipolygon - multipolygon`, the same operand twice. -/
theorem C60_subtract_self_multipolygon (h1 : ValidPolygons m.polygons) (c1 : 2 ≤ m.polygons.length)
    (hf : FullyNoded (outlineEdges m.polygons)) : subtractMultipolygonFromMultipolygon m m = .ok .empty := by
  refine empty_of (fun _ k => k.2 k.1) (C59_subtract_multipolygon_multipolygon h1 h1 (clean_self hf))
    (C58_subtract_multipolygon_multipolygon h1 h1 (clean_self hf)) fun x hx => ?_
  have full : m.polygons ≠ [] := by intro z; rw [z] at c1; simp at c1
  have e : subtractMultipolygonFromMultipolygon m m =
      if doBoxesHaveNoCommonArea m.boundingBox m.boundingBox = true then .ok (.multipolygon m) else
      if (m.polygons.filter fun x => doBoxesHaveCommonArea x.boundingBox m.boundingBox) = [] then .ok (.multipolygon m) else
      if (m.polygons.filter fun x => doBoxesHaveCommonArea x.boundingBox m.boundingBox) = [] then .ok (.multipolygon m) else
      (ShpOp.difference.run _ _ _).bind fun ps => collectMaybeEmptyPolygons (ps ++ (m.polygons.filter fun x => !doBoxesHaveCommonArea x.boundingBox m.boundingBox)) := rfl
  rw [e] at hx
  by_cases k0 : doBoxesHaveNoCommonArea m.boundingBox m.boundingBox = true
  · rw [if_pos k0] at hx; cases hx; exact full
  rw [if_neg k0] at hx
  by_cases k1 : (m.polygons.filter fun x => doBoxesHaveCommonArea x.boundingBox m.boundingBox) = []
  · rw [if_pos k1] at hx; cases hx; exact full
  rw [if_neg k1, if_neg k1] at hx
  exact bind_full hx

/-- C60 `polygon ^ polygon`, the same operand twice. -/
theorem C60_symmetric_subtract_self_polygon (h1 : ValidPolygon p) (hf : FullyNoded (outlineEdges [p])) :
    symmetricSubtractPolygonFromPolygon p p = .ok .empty := by
  refine empty_of (fun _ k => by rcases k with k | k <;> exact k.2 k.1)
    (C59_symmetric_subtract_polygon_polygon h1 h1 (clean_self hf))
    (C58_symmetric_subtract_polygon_polygon h1 h1 (clean_self hf)) fun x hx => ?_
  have e : symmetricSubtractPolygonFromPolygon p p =
      if doBoxesHaveNoCommonContinuum p.boundingBox p.boundingBox = true then (do let a ← Multipolygon.new [p, p]; return Geom.multipolygon a) else
      (ShpOp.symmetricDifference.run _ _ _).bind fun ps => collectMaybeEmptyPolygons (ps) := rfl
  rw [e] at hx
  by_cases k0 : doBoxesHaveNoCommonContinuum p.boundingBox p.boundingBox = true
  · rw [if_pos k0] at hx; exact new_full hx
  · rw [if_neg k0] at hx; exact bind_full (F := id) hx

/-- C60 `multipolygon ^ multipolygon`, the same operand twice. -/
theorem C60_symmetric_subtract_self_multipolygon (h1 : ValidPolygons m.polygons) (c1 : 2 ≤ m.polygons.length)
    (hf : FullyNoded (outlineEdges m.polygons)) : symmetricSubtractMultipolygonFromMultipolygon m m = .ok .empty := by
  refine empty_of (fun _ k => by rcases k with k | k <;> exact k.2 k.1)
    (C59_symmetric_subtract_multipolygon_multipolygon h1 h1 c1 c1 (clean_self hf))
    (C58_symmetric_subtract_multipolygon_multipolygon h1 h1 c1 c1 (clean_self hf)) fun x hx => ?_
  have e : symmetricSubtractMultipolygonFromMultipolygon m m =
      if doBoxesHaveNoCommonContinuum m.boundingBox m.boundingBox = true then (do let a ← Multipolygon.new (m.polygons ++ m.polygons); return Geom.multipolygon a) else
      if (m.polygons.filter fun x => doBoxesHaveCommonContinuum x.boundingBox m.boundingBox) = [] then (do let a ← Multipolygon.new (m.polygons ++ m.polygons); return Geom.multipolygon a) else
      if (m.polygons.filter fun x => doBoxesHaveCommonContinuum x.boundingBox m.boundingBox) = [] then (do let a ← Multipolygon.new (m.polygons ++ m.polygons); return Geom.multipolygon a) else
      (ShpOp.symmetricDifference.run _ _ _).bind fun ps => collectMaybeEmptyPolygons (ps ++ (m.polygons.filter fun x => !doBoxesHaveCommonContinuum x.boundingBox m.boundingBox) ++ (m.polygons.filter fun x => !doBoxesHaveCommonContinuum x.boundingBox m.boundingBox)) := rfl
  rw [e] at hx
  by_cases k0 : doBoxesHaveNoCommonContinuum m.boundingBox m.boundingBox = true
  · rw [if_pos k0] at hx; exact new_full hx
  rw [if_neg k0] at hx
  by_cases k1 : (m.polygons.filter fun x => doBoxesHaveCommonContinuum x.boundingBox m.boundingBox) = []
  · rw [if_pos k1] at hx; exact new_full hx
  rw [if_neg k1, if_neg k1] at hx
  exact bind_full hx

end

/-! ### Concrete cases -/

/-- C60: all the hypotheses hold in concrete cases. -/
example : ValidPolygon exBoard ∧ ValidPolygons exBoth.polygons ∧ 2 ≤ exBoth.polygons.length ∧
    CleanOperands [exBoard] exBoth.polygons ∧ FullyNoded (outlineEdges [exBoard]) ∧ FullyNoded (outlineEdges exBoth.polygons) :=
  ⟨exBoard_valid, exBoth_valid, by decide, exBoard_clean, exBoard_clean.1, exBoard_clean.2.1⟩

example : symmetricSubtractMultipolygonFromMultipolygon exBoth exBoth = .ok .empty :=
  C60_symmetric_subtract_self_multipolygon exBoth_valid (by decide) exBoard_clean.2.1

example : SameLocations (unitePolygonWithMultipolygon exBoard exBoth) (uniteMultipolygonWithPolygon exBoth exBoard) :=
  C60_unite_swap_polygon_multipolygon exBoard_valid exBoth_valid (by decide) exBoard_clean

end Rene
