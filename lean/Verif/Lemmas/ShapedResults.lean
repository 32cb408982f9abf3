import Verif.Lemmas.ShapedCore

/-! The results of the operations between polygons and multipolygons, function by function. -/

namespace Rene
open Spec Sweep

theorem polygon_area {p : Polygon} {B : Box} (h : ¬ doBoxesHaveNoCommonArea p.boundingBox B = true) :
    [p] = [p].filter fun p => doBoxesHaveCommonArea p.boundingBox B := by
  rw [Bool.not_eq_true] at h
  simp [List.filter, commonArea_not, h]

theorem polygon_continuum {p : Polygon} {B : Box} (h : ¬ doBoxesHaveNoCommonContinuum p.boundingBox B = true) :
    [p] = [p].filter fun p => doBoxesHaveCommonContinuum p.boundingBox B := by
  rw [Bool.not_eq_true] at h
  simp [List.filter, continuum_compl, h]

theorem noArea_symm (a b : Box) : doBoxesHaveNoCommonArea a b = doBoxesHaveNoCommonArea b a := by
  rw [Bool.eq_iff_iff]; exact ⟨noCommonArea_symm, noCommonArea_symm⟩

theorem noContinuum_symm (a b : Box) : doBoxesHaveNoCommonContinuum a b = doBoxesHaveNoCommonContinuum b a := by
  rw [Bool.eq_iff_iff, noCommonContinuum_iff, noCommonContinuum_iff]; grind

theorem filter_not {l : List Polygon} {f : Polygon → Bool} (h : l = l.filter f) : (l.filter fun p => !f p) = [] := by
  rw [List.filter_eq_nil_iff]
  intro p hp k
  rw [h] at hp
  rw [(List.mem_filter.mp hp).2] at k
  cases k

theorem new_multi {l : List Polygon} (h : 2 ≤ l.length) : (do let a ← Multipolygon.new l; return Geom.multipolygon a) =
    (.ok (.multipolygon ⟨l⟩) : Except Err Geom) := by
  unfold Multipolygon.new
  rw [if_neg (by omega)]
  rfl

theorem finish {op : ShpOp} {l1 l2 ps res : List Polygon} {r : Except Err (List Polygon)} {G : List Polygon → Except Err Geom}
    (hr : r = .ok ps) (h : Combined op l1 l2 res) (hc : ∃ g, G ps = .ok g ∧ resultPolygons g = some res) :
    Result op l1 l2 (r.bind G) := by
  obtain ⟨g, hg, k⟩ := hc
  subst hr
  exact ⟨g, res, hg, k, h⟩

section
variable {p r : Polygon} {m n : Multipolygon}

theorem result_subtractPolygonFromPolygon (h1 : ValidPolygon p) (h2 : ValidPolygon r) :
    Result .difference [p] [r] (subtractPolygonFromPolygon p r) := by
  have e : subtractPolygonFromPolygon p r =
      if doBoxesHaveNoCommonArea p.boundingBox r.boundingBox = true then .ok (.polygon p) else
      (ShpOp.difference.run _ _ _).bind fun ps => collectMaybeEmptyPolygons (ps) := rfl
  have O1 := operand_polygon h1
  have O2 := operand_polygon h2
  rw [e]
  by_cases k0 : doBoxesHaveNoCommonArea p.boundingBox r.boundingBox = true
  · rw [if_pos k0]
    exact ⟨_, _, rfl, rfl, early_area (Or.inl rfl) O1 O2 (Or.inl k0)⟩
  rw [if_neg k0]
  have e1 := polygon_area k0
  have e2 := polygon_area (p := r) (B := p.boundingBox) (by rwa [noArea_symm])
  obtain ⟨ps, hr, h⟩ := core_difference O1 O2 e1 e2 (by simp)
  rw [edgesOf_single, edgesOf_single] at hr
  rw [filter_not e1, List.append_nil] at h
  exact finish hr h collect_maybe

theorem result_subtractMultipolygonFromPolygon (h1 : ValidPolygon p) (h2 : ValidPolygons n.polygons) :
    Result .difference [p] n.polygons (subtractMultipolygonFromPolygon p n) := by
  have e : subtractMultipolygonFromPolygon p n =
      if doBoxesHaveNoCommonArea p.boundingBox n.boundingBox = true then .ok (.polygon p) else
      if (n.polygons.filter fun x => doBoxesHaveCommonArea x.boundingBox p.boundingBox) = [] then .ok (.polygon p) else
      (ShpOp.difference.run _ _ _).bind fun ps => collectMaybeEmptyPolygons (ps) := rfl
  have O1 := operand_polygon h1
  have O2 := operand_multi h2
  rw [e]
  by_cases k0 : doBoxesHaveNoCommonArea p.boundingBox n.boundingBox = true
  · rw [if_pos k0]
    exact ⟨_, _, rfl, rfl, early_area (Or.inl rfl) O1 O2 (Or.inl k0)⟩
  rw [if_neg k0]
  by_cases k2 : (n.polygons.filter fun x => doBoxesHaveCommonArea x.boundingBox p.boundingBox) = []
  · rw [if_pos k2]
    exact ⟨_, _, rfl, rfl, early_area (Or.inl rfl) O1 O2 (Or.inr (Or.inr k2))⟩
  rw [if_neg k2]
  have e1 := polygon_area k0
  obtain ⟨ps, hr, h⟩ := core_difference O1 O2 e1 rfl (by simp)
  rw [edgesOf_single] at hr
  rw [filter_not e1, List.append_nil] at h
  exact finish hr h collect_maybe

theorem result_subtractPolygonFromMultipolygon (h1 : ValidPolygons m.polygons) (h2 : ValidPolygon r) :
    Result .difference m.polygons [r] (subtractPolygonFromMultipolygon m r) := by
  have e : subtractPolygonFromMultipolygon m r =
      if doBoxesHaveNoCommonArea m.boundingBox r.boundingBox = true then .ok (.multipolygon m) else
      if (m.polygons.filter fun x => doBoxesHaveCommonArea x.boundingBox r.boundingBox) = [] then .ok (.multipolygon m) else
      (ShpOp.difference.run _ _ _).bind fun ps => collectMaybeEmptyPolygons (ps ++ (m.polygons.filter fun x => !doBoxesHaveCommonArea x.boundingBox r.boundingBox)) := rfl
  have O1 := operand_multi h1
  have O2 := operand_polygon h2
  rw [e]
  by_cases k0 : doBoxesHaveNoCommonArea m.boundingBox r.boundingBox = true
  · rw [if_pos k0]
    exact ⟨_, _, rfl, rfl, early_area (Or.inl rfl) O1 O2 (Or.inl k0)⟩
  rw [if_neg k0]
  by_cases k1 : (m.polygons.filter fun x => doBoxesHaveCommonArea x.boundingBox r.boundingBox) = []
  · rw [if_pos k1]
    exact ⟨_, _, rfl, rfl, early_area (Or.inl rfl) O1 O2 (Or.inr (Or.inl k1))⟩
  rw [if_neg k1]
  have e2 := polygon_area (p := r) (B := m.boundingBox) (by rwa [noArea_symm])
  obtain ⟨ps, hr, h⟩ := core_difference O1 O2 rfl e2 k1
  rw [edgesOf_single] at hr
  exact finish hr h collect_maybe

theorem result_subtractMultipolygonFromMultipolygon (h1 : ValidPolygons m.polygons) (h2 : ValidPolygons n.polygons) :
    Result .difference m.polygons n.polygons (subtractMultipolygonFromMultipolygon m n) := by
  have e : subtractMultipolygonFromMultipolygon m n =
      if doBoxesHaveNoCommonArea m.boundingBox n.boundingBox = true then .ok (.multipolygon m) else
      if (m.polygons.filter fun x => doBoxesHaveCommonArea x.boundingBox n.boundingBox) = [] then .ok (.multipolygon m) else
      if (n.polygons.filter fun x => doBoxesHaveCommonArea x.boundingBox m.boundingBox) = [] then .ok (.multipolygon m) else
      (ShpOp.difference.run _ _ _).bind fun ps => collectMaybeEmptyPolygons (ps ++ (m.polygons.filter fun x => !doBoxesHaveCommonArea x.boundingBox n.boundingBox)) := rfl
  have O1 := operand_multi h1
  have O2 := operand_multi h2
  rw [e]
  by_cases k0 : doBoxesHaveNoCommonArea m.boundingBox n.boundingBox = true
  · rw [if_pos k0]
    exact ⟨_, _, rfl, rfl, early_area (Or.inl rfl) O1 O2 (Or.inl k0)⟩
  rw [if_neg k0]
  by_cases k1 : (m.polygons.filter fun x => doBoxesHaveCommonArea x.boundingBox n.boundingBox) = []
  · rw [if_pos k1]
    exact ⟨_, _, rfl, rfl, early_area (Or.inl rfl) O1 O2 (Or.inr (Or.inl k1))⟩
  rw [if_neg k1]
  by_cases k2 : (n.polygons.filter fun x => doBoxesHaveCommonArea x.boundingBox m.boundingBox) = []
  · rw [if_pos k2]
    exact ⟨_, _, rfl, rfl, early_area (Or.inl rfl) O1 O2 (Or.inr (Or.inr k2))⟩
  rw [if_neg k2]
  obtain ⟨ps, hr, h⟩ := core_difference O1 O2 rfl rfl k1
  exact finish hr h collect_maybe

theorem result_intersectPolygonWithPolygon (h1 : ValidPolygon p) (h2 : ValidPolygon r) :
    Result .intersection [p] [r] (intersectPolygonWithPolygon p r) := by
  have e : intersectPolygonWithPolygon p r =
      if doBoxesHaveNoCommonArea p.boundingBox r.boundingBox = true then .ok .empty else
      (ShpOp.intersection.run _ _ _).bind fun ps => collectMaybeEmptyPolygons (ps) := rfl
  have O1 := operand_polygon h1
  have O2 := operand_polygon h2
  rw [e]
  by_cases k0 : doBoxesHaveNoCommonArea p.boundingBox r.boundingBox = true
  · rw [if_pos k0]
    exact ⟨_, _, rfl, rfl, early_area (Or.inr rfl) O1 O2 (Or.inl k0)⟩
  rw [if_neg k0]
  have e1 := polygon_area k0
  have e2 := polygon_area (p := r) (B := p.boundingBox) (by rwa [noArea_symm])
  obtain ⟨ps, hr, h⟩ := core_intersection O1 O2 e1 e2 (by simp) (by simp) rfl rfl
  rw [edgesOf_single, edgesOf_single] at hr
  exact finish hr h collect_maybe

theorem result_intersectPolygonWithMultipolygon (h1 : ValidPolygon p) (h2 : ValidPolygons n.polygons) :
    Result .intersection [p] n.polygons (intersectPolygonWithMultipolygon p n) := by
  have e : intersectPolygonWithMultipolygon p n =
      if doBoxesHaveNoCommonArea p.boundingBox n.boundingBox = true then .ok .empty else
      if (n.polygons.filter fun x => doBoxesHaveCommonArea x.boundingBox p.boundingBox) = [] then .ok .empty else
      (ShpOp.intersection.run _ _ _).bind fun ps => collectMaybeEmptyPolygons (ps) := rfl
  have O1 := operand_polygon h1
  have O2 := operand_multi h2
  rw [e]
  by_cases k0 : doBoxesHaveNoCommonArea p.boundingBox n.boundingBox = true
  · rw [if_pos k0]
    exact ⟨_, _, rfl, rfl, early_area (Or.inr rfl) O1 O2 (Or.inl k0)⟩
  rw [if_neg k0]
  by_cases k2 : (n.polygons.filter fun x => doBoxesHaveCommonArea x.boundingBox p.boundingBox) = []
  · rw [if_pos k2]
    exact ⟨_, _, rfl, rfl, early_area (Or.inr rfl) O1 O2 (Or.inr (Or.inr k2))⟩
  rw [if_neg k2]
  have e1 := polygon_area k0
  obtain ⟨ps, hr, h⟩ := core_intersection O1 O2 e1 rfl (by simp) k2 rfl rfl
  rw [edgesOf_single] at hr
  exact finish hr h collect_maybe

theorem result_intersectMultipolygonWithPolygon (h1 : ValidPolygons m.polygons) (h2 : ValidPolygon r) :
    Result .intersection m.polygons [r] (intersectMultipolygonWithPolygon m r) := by
  have e : intersectMultipolygonWithPolygon m r =
      if doBoxesHaveNoCommonArea m.boundingBox r.boundingBox = true then .ok .empty else
      if (m.polygons.filter fun x => doBoxesHaveCommonArea x.boundingBox r.boundingBox) = [] then .ok .empty else
      (ShpOp.intersection.run _ _ _).bind fun ps => collectMaybeEmptyPolygons (ps) := rfl
  have O1 := operand_multi h1
  have O2 := operand_polygon h2
  rw [e]
  by_cases k0 : doBoxesHaveNoCommonArea m.boundingBox r.boundingBox = true
  · rw [if_pos k0]
    exact ⟨_, _, rfl, rfl, early_area (Or.inr rfl) O1 O2 (Or.inl k0)⟩
  rw [if_neg k0]
  by_cases k1 : (m.polygons.filter fun x => doBoxesHaveCommonArea x.boundingBox r.boundingBox) = []
  · rw [if_pos k1]
    exact ⟨_, _, rfl, rfl, early_area (Or.inr rfl) O1 O2 (Or.inr (Or.inl k1))⟩
  rw [if_neg k1]
  have e2 := polygon_area (p := r) (B := m.boundingBox) (by rwa [noArea_symm])
  obtain ⟨ps, hr, h⟩ := core_intersection O1 O2 rfl e2 k1 (by simp) rfl rfl
  rw [edgesOf_single] at hr
  exact finish hr h collect_maybe

theorem result_intersectMultipolygonWithMultipolygon (h1 : ValidPolygons m.polygons) (h2 : ValidPolygons n.polygons) :
    Result .intersection m.polygons n.polygons (intersectMultipolygonWithMultipolygon m n) := by
  have e : intersectMultipolygonWithMultipolygon m n =
      if doBoxesHaveNoCommonArea m.boundingBox n.boundingBox = true then .ok .empty else
      if (m.polygons.filter fun x => doBoxesHaveCommonArea x.boundingBox n.boundingBox) = [] then .ok .empty else
      if (n.polygons.filter fun x => doBoxesHaveCommonArea x.boundingBox m.boundingBox) = [] then .ok .empty else
      (ShpOp.intersection.run _ _ _).bind fun ps => collectMaybeEmptyPolygons (ps) := rfl
  have O1 := operand_multi h1
  have O2 := operand_multi h2
  rw [e]
  by_cases k0 : doBoxesHaveNoCommonArea m.boundingBox n.boundingBox = true
  · rw [if_pos k0]
    exact ⟨_, _, rfl, rfl, early_area (Or.inr rfl) O1 O2 (Or.inl k0)⟩
  rw [if_neg k0]
  by_cases k1 : (m.polygons.filter fun x => doBoxesHaveCommonArea x.boundingBox n.boundingBox) = []
  · rw [if_pos k1]
    exact ⟨_, _, rfl, rfl, early_area (Or.inr rfl) O1 O2 (Or.inr (Or.inl k1))⟩
  rw [if_neg k1]
  by_cases k2 : (n.polygons.filter fun x => doBoxesHaveCommonArea x.boundingBox m.boundingBox) = []
  · rw [if_pos k2]
    exact ⟨_, _, rfl, rfl, early_area (Or.inr rfl) O1 O2 (Or.inr (Or.inr k2))⟩
  rw [if_neg k2]
  obtain ⟨ps, hr, h⟩ := core_intersection O1 O2 rfl rfl k1 k2 rfl rfl
  exact finish hr h collect_maybe

theorem result_unitePolygonWithPolygon (h1 : ValidPolygon p) (h2 : ValidPolygon r) :
    Result .union [p] [r] (unitePolygonWithPolygon p r) := by
  have e : unitePolygonWithPolygon p r =
      if doBoxesHaveNoCommonContinuum p.boundingBox r.boundingBox = true then (do let a ← Multipolygon.new [p, r]; return Geom.multipolygon a) else
      (ShpOp.union.run _ _ _).bind fun ps => collectNonEmptyPolygons (ps) := rfl
  have O1 := operand_polygon h1
  have O2 := operand_polygon h2
  rw [e]
  by_cases k0 : doBoxesHaveNoCommonContinuum p.boundingBox r.boundingBox = true
  · rw [if_pos k0]
    rw [new_multi (by simp)]
    exact ⟨_, _, rfl, rfl, early_continuum O1 O2 (Or.inl k0)⟩
  rw [if_neg k0]
  have e1 := polygon_continuum k0
  have e2 := polygon_continuum (p := r) (B := p.boundingBox) (by rwa [noContinuum_symm])
  obtain ⟨ps, hr, hn, h⟩ := core_whole (op := .union) (by simp) O1 O2 e1 e2 (by simp)
  rw [edgesOf_single, edgesOf_single] at hr
  rw [filter_not e1, filter_not e2, List.append_nil, List.append_nil] at h
  exact finish hr h (collect_nonEmpty (by simp [hn rfl]))

theorem result_unitePolygonWithMultipolygon (h1 : ValidPolygon p) (h2 : ValidPolygons n.polygons) (c2 : 2 ≤ n.polygons.length) :
    Result .union [p] n.polygons (unitePolygonWithMultipolygon p n) := by
  have e : unitePolygonWithMultipolygon p n =
      if doBoxesHaveNoCommonContinuum p.boundingBox n.boundingBox = true then (do let a ← Multipolygon.new (p :: n.polygons); return Geom.multipolygon a) else
      if (n.polygons.filter fun x => doBoxesHaveCommonContinuum x.boundingBox p.boundingBox) = [] then (do let a ← Multipolygon.new (p :: n.polygons); return Geom.multipolygon a) else
      (ShpOp.union.run _ _ _).bind fun ps => collectNonEmptyPolygons (ps ++ (n.polygons.filter fun x => !doBoxesHaveCommonContinuum x.boundingBox p.boundingBox)) := rfl
  have O1 := operand_polygon h1
  have O2 := operand_multi h2
  rw [e]
  by_cases k0 : doBoxesHaveNoCommonContinuum p.boundingBox n.boundingBox = true
  · rw [if_pos k0]
    rw [new_multi (by simp; omega)]
    exact ⟨_, _, rfl, rfl, early_continuum O1 O2 (Or.inl k0)⟩
  rw [if_neg k0]
  by_cases k2 : (n.polygons.filter fun x => doBoxesHaveCommonContinuum x.boundingBox p.boundingBox) = []
  · rw [if_pos k2]
    rw [new_multi (by simp; omega)]
    exact ⟨_, _, rfl, rfl, early_continuum O1 O2 (Or.inr (Or.inr k2))⟩
  rw [if_neg k2]
  have e1 := polygon_continuum k0
  obtain ⟨ps, hr, hn, h⟩ := core_whole (op := .union) (by simp) O1 O2 e1 rfl (by simp)
  rw [edgesOf_single] at hr
  rw [filter_not e1, List.nil_append] at h
  exact finish hr h (collect_nonEmpty (by simp [hn rfl]))

theorem result_uniteMultipolygonWithPolygon (h1 : ValidPolygons m.polygons) (h2 : ValidPolygon r) (c1 : 2 ≤ m.polygons.length) :
    Result .union m.polygons [r] (uniteMultipolygonWithPolygon m r) := by
  have e : uniteMultipolygonWithPolygon m r =
      if doBoxesHaveNoCommonContinuum m.boundingBox r.boundingBox = true then (do let a ← Multipolygon.new (m.polygons ++ [r]); return Geom.multipolygon a) else
      if (m.polygons.filter fun x => doBoxesHaveCommonContinuum x.boundingBox r.boundingBox) = [] then (do let a ← Multipolygon.new (m.polygons ++ [r]); return Geom.multipolygon a) else
      (ShpOp.union.run _ _ _).bind fun ps => collectNonEmptyPolygons (ps ++ (m.polygons.filter fun x => !doBoxesHaveCommonContinuum x.boundingBox r.boundingBox)) := rfl
  have O1 := operand_multi h1
  have O2 := operand_polygon h2
  rw [e]
  by_cases k0 : doBoxesHaveNoCommonContinuum m.boundingBox r.boundingBox = true
  · rw [if_pos k0]
    rw [new_multi (by simp; omega)]
    exact ⟨_, _, rfl, rfl, early_continuum O1 O2 (Or.inl k0)⟩
  rw [if_neg k0]
  by_cases k1 : (m.polygons.filter fun x => doBoxesHaveCommonContinuum x.boundingBox r.boundingBox) = []
  · rw [if_pos k1]
    rw [new_multi (by simp; omega)]
    exact ⟨_, _, rfl, rfl, early_continuum O1 O2 (Or.inr (Or.inl k1))⟩
  rw [if_neg k1]
  have e2 := polygon_continuum (p := r) (B := m.boundingBox) (by rwa [noContinuum_symm])
  obtain ⟨ps, hr, hn, h⟩ := core_whole (op := .union) (by simp) O1 O2 rfl e2 k1
  rw [edgesOf_single] at hr
  rw [filter_not e2, List.append_nil] at h
  exact finish hr h (collect_nonEmpty (by simp [hn rfl]))

theorem result_uniteMultipolygonWithMultipolygon (h1 : ValidPolygons m.polygons) (h2 : ValidPolygons n.polygons) (c1 : 2 ≤ m.polygons.length) (c2 : 2 ≤ n.polygons.length) :
    Result .union m.polygons n.polygons (uniteMultipolygonWithMultipolygon m n) := by
  have e : uniteMultipolygonWithMultipolygon m n =
      if doBoxesHaveNoCommonContinuum m.boundingBox n.boundingBox = true then (do let a ← Multipolygon.new (m.polygons ++ n.polygons); return Geom.multipolygon a) else
      if (m.polygons.filter fun x => doBoxesHaveCommonContinuum x.boundingBox n.boundingBox) = [] then (do let a ← Multipolygon.new (m.polygons ++ n.polygons); return Geom.multipolygon a) else
      if (n.polygons.filter fun x => doBoxesHaveCommonContinuum x.boundingBox m.boundingBox) = [] then (do let a ← Multipolygon.new (m.polygons ++ n.polygons); return Geom.multipolygon a) else
      (ShpOp.union.run _ _ _).bind fun ps => collectNonEmptyPolygons (ps ++ (m.polygons.filter fun x => !doBoxesHaveCommonContinuum x.boundingBox n.boundingBox) ++ (n.polygons.filter fun x => !doBoxesHaveCommonContinuum x.boundingBox m.boundingBox)) := rfl
  have O1 := operand_multi h1
  have O2 := operand_multi h2
  rw [e]
  by_cases k0 : doBoxesHaveNoCommonContinuum m.boundingBox n.boundingBox = true
  · rw [if_pos k0]
    rw [new_multi (by simp; omega)]
    exact ⟨_, _, rfl, rfl, early_continuum O1 O2 (Or.inl k0)⟩
  rw [if_neg k0]
  by_cases k1 : (m.polygons.filter fun x => doBoxesHaveCommonContinuum x.boundingBox n.boundingBox) = []
  · rw [if_pos k1]
    rw [new_multi (by simp; omega)]
    exact ⟨_, _, rfl, rfl, early_continuum O1 O2 (Or.inr (Or.inl k1))⟩
  rw [if_neg k1]
  by_cases k2 : (n.polygons.filter fun x => doBoxesHaveCommonContinuum x.boundingBox m.boundingBox) = []
  · rw [if_pos k2]
    rw [new_multi (by simp; omega)]
    exact ⟨_, _, rfl, rfl, early_continuum O1 O2 (Or.inr (Or.inr k2))⟩
  rw [if_neg k2]
  obtain ⟨ps, hr, hn, h⟩ := core_whole (op := .union) (by simp) O1 O2 rfl rfl k1
  rw [← List.append_assoc] at h
  exact finish hr h (collect_nonEmpty (by simp [hn rfl]))

theorem result_symmetricSubtractPolygonFromPolygon (h1 : ValidPolygon p) (h2 : ValidPolygon r) :
    Result .symmetricDifference [p] [r] (symmetricSubtractPolygonFromPolygon p r) := by
  have e : symmetricSubtractPolygonFromPolygon p r =
      if doBoxesHaveNoCommonContinuum p.boundingBox r.boundingBox = true then (do let a ← Multipolygon.new [p, r]; return Geom.multipolygon a) else
      (ShpOp.symmetricDifference.run _ _ _).bind fun ps => collectMaybeEmptyPolygons (ps) := rfl
  have O1 := operand_polygon h1
  have O2 := operand_polygon h2
  rw [e]
  by_cases k0 : doBoxesHaveNoCommonContinuum p.boundingBox r.boundingBox = true
  · rw [if_pos k0]
    rw [new_multi (by simp)]
    exact ⟨_, _, rfl, rfl, early_continuum O1 O2 (Or.inl k0)⟩
  rw [if_neg k0]
  have e1 := polygon_continuum k0
  have e2 := polygon_continuum (p := r) (B := p.boundingBox) (by rwa [noContinuum_symm])
  obtain ⟨ps, hr, hn, h⟩ := core_whole (op := .symmetricDifference) (by simp) O1 O2 e1 e2 (by simp)
  rw [edgesOf_single, edgesOf_single] at hr
  rw [filter_not e1, filter_not e2, List.append_nil, List.append_nil] at h
  exact finish hr h collect_maybe

theorem result_symmetricSubtractMultipolygonFromPolygon (h1 : ValidPolygon p) (h2 : ValidPolygons n.polygons) (c2 : 2 ≤ n.polygons.length) :
    Result .symmetricDifference [p] n.polygons (symmetricSubtractMultipolygonFromPolygon p n) := by
  have e : symmetricSubtractMultipolygonFromPolygon p n =
      if doBoxesHaveNoCommonContinuum p.boundingBox n.boundingBox = true then (do let a ← Multipolygon.new (p :: n.polygons); return Geom.multipolygon a) else
      if (n.polygons.filter fun x => doBoxesHaveCommonContinuum x.boundingBox p.boundingBox) = [] then (do let a ← Multipolygon.new (p :: n.polygons); return Geom.multipolygon a) else
      (ShpOp.symmetricDifference.run _ _ _).bind fun ps => collectMaybeEmptyPolygons (ps ++ (n.polygons.filter fun x => !doBoxesHaveCommonContinuum x.boundingBox p.boundingBox)) := rfl
  have O1 := operand_polygon h1
  have O2 := operand_multi h2
  rw [e]
  by_cases k0 : doBoxesHaveNoCommonContinuum p.boundingBox n.boundingBox = true
  · rw [if_pos k0]
    rw [new_multi (by simp; omega)]
    exact ⟨_, _, rfl, rfl, early_continuum O1 O2 (Or.inl k0)⟩
  rw [if_neg k0]
  by_cases k2 : (n.polygons.filter fun x => doBoxesHaveCommonContinuum x.boundingBox p.boundingBox) = []
  · rw [if_pos k2]
    rw [new_multi (by simp; omega)]
    exact ⟨_, _, rfl, rfl, early_continuum O1 O2 (Or.inr (Or.inr k2))⟩
  rw [if_neg k2]
  have e1 := polygon_continuum k0
  obtain ⟨ps, hr, hn, h⟩ := core_whole (op := .symmetricDifference) (by simp) O1 O2 e1 rfl (by simp)
  rw [edgesOf_single] at hr
  rw [filter_not e1, List.nil_append] at h
  exact finish hr h collect_maybe

theorem result_symmetricSubtractPolygonFromMultipolygon (h1 : ValidPolygons m.polygons) (h2 : ValidPolygon r) (c1 : 2 ≤ m.polygons.length) :
    Result .symmetricDifference m.polygons [r] (symmetricSubtractPolygonFromMultipolygon m r) := by
  have e : symmetricSubtractPolygonFromMultipolygon m r =
      if doBoxesHaveNoCommonContinuum m.boundingBox r.boundingBox = true then (do let a ← Multipolygon.new (m.polygons ++ [r]); return Geom.multipolygon a) else
      if (m.polygons.filter fun x => doBoxesHaveCommonContinuum x.boundingBox r.boundingBox) = [] then (do let a ← Multipolygon.new (m.polygons ++ [r]); return Geom.multipolygon a) else
      (ShpOp.symmetricDifference.run _ _ _).bind fun ps => collectMaybeEmptyPolygons (ps ++ (m.polygons.filter fun x => !doBoxesHaveCommonContinuum x.boundingBox r.boundingBox)) := rfl
  have O1 := operand_multi h1
  have O2 := operand_polygon h2
  rw [e]
  by_cases k0 : doBoxesHaveNoCommonContinuum m.boundingBox r.boundingBox = true
  · rw [if_pos k0]
    rw [new_multi (by simp; omega)]
    exact ⟨_, _, rfl, rfl, early_continuum O1 O2 (Or.inl k0)⟩
  rw [if_neg k0]
  by_cases k1 : (m.polygons.filter fun x => doBoxesHaveCommonContinuum x.boundingBox r.boundingBox) = []
  · rw [if_pos k1]
    rw [new_multi (by simp; omega)]
    exact ⟨_, _, rfl, rfl, early_continuum O1 O2 (Or.inr (Or.inl k1))⟩
  rw [if_neg k1]
  have e2 := polygon_continuum (p := r) (B := m.boundingBox) (by rwa [noContinuum_symm])
  obtain ⟨ps, hr, hn, h⟩ := core_whole (op := .symmetricDifference) (by simp) O1 O2 rfl e2 k1
  rw [edgesOf_single] at hr
  rw [filter_not e2, List.append_nil] at h
  exact finish hr h collect_maybe

theorem result_symmetricSubtractMultipolygonFromMultipolygon (h1 : ValidPolygons m.polygons) (h2 : ValidPolygons n.polygons) (c1 : 2 ≤ m.polygons.length) (c2 : 2 ≤ n.polygons.length) :
    Result .symmetricDifference m.polygons n.polygons (symmetricSubtractMultipolygonFromMultipolygon m n) := by
  have e : symmetricSubtractMultipolygonFromMultipolygon m n =
      if doBoxesHaveNoCommonContinuum m.boundingBox n.boundingBox = true then (do let a ← Multipolygon.new (m.polygons ++ n.polygons); return Geom.multipolygon a) else
      if (m.polygons.filter fun x => doBoxesHaveCommonContinuum x.boundingBox n.boundingBox) = [] then (do let a ← Multipolygon.new (m.polygons ++ n.polygons); return Geom.multipolygon a) else
      if (n.polygons.filter fun x => doBoxesHaveCommonContinuum x.boundingBox m.boundingBox) = [] then (do let a ← Multipolygon.new (m.polygons ++ n.polygons); return Geom.multipolygon a) else
      (ShpOp.symmetricDifference.run _ _ _).bind fun ps => collectMaybeEmptyPolygons (ps ++ (m.polygons.filter fun x => !doBoxesHaveCommonContinuum x.boundingBox n.boundingBox) ++ (n.polygons.filter fun x => !doBoxesHaveCommonContinuum x.boundingBox m.boundingBox)) := rfl
  have O1 := operand_multi h1
  have O2 := operand_multi h2
  rw [e]
  by_cases k0 : doBoxesHaveNoCommonContinuum m.boundingBox n.boundingBox = true
  · rw [if_pos k0]
    rw [new_multi (by simp; omega)]
    exact ⟨_, _, rfl, rfl, early_continuum O1 O2 (Or.inl k0)⟩
  rw [if_neg k0]
  by_cases k1 : (m.polygons.filter fun x => doBoxesHaveCommonContinuum x.boundingBox n.boundingBox) = []
  · rw [if_pos k1]
    rw [new_multi (by simp; omega)]
    exact ⟨_, _, rfl, rfl, early_continuum O1 O2 (Or.inr (Or.inl k1))⟩
  rw [if_neg k1]
  by_cases k2 : (n.polygons.filter fun x => doBoxesHaveCommonContinuum x.boundingBox m.boundingBox) = []
  · rw [if_pos k2]
    rw [new_multi (by simp; omega)]
    exact ⟨_, _, rfl, rfl, early_continuum O1 O2 (Or.inr (Or.inr k2))⟩
  rw [if_neg k2]
  obtain ⟨ps, hr, hn, h⟩ := core_whole (op := .symmetricDifference) (by simp) O1 O2 rfl rfl k1
  rw [← List.append_assoc] at h
  exact finish hr h collect_maybe

end

end Rene
