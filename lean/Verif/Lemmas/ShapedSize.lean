import Verif.Model.DispatchShaped

/-! A multipolygon which is returned has at least two polygons. -/

namespace Rene

def Big (r : Except Err Geom) : Prop := ∀ m, r = .ok (.multipolygon m) → 2 ≤ m.polygons.length

theorem big_maybe (l : List Polygon) : Big (collectMaybeEmptyPolygons l) := by
  rcases l with _ | ⟨a, _ | ⟨b, l⟩⟩ <;> intro m h
  · cases h
  · cases h
  · have : collectMaybeEmptyPolygons (a :: b :: l) = .ok (.multipolygon ⟨a :: b :: l⟩) := rfl
    rw [this] at h
    cases h
    simp

theorem big_nonEmpty (l : List Polygon) : Big (collectNonEmptyPolygons l) := by
  rcases l with _ | ⟨a, _ | ⟨b, l⟩⟩ <;> intro m h
  · cases h
  · cases h
  · have : collectNonEmptyPolygons (a :: b :: l) = .ok (.multipolygon ⟨a :: b :: l⟩) := rfl
    rw [this] at h
    cases h
    simp

theorem big_new (l : List Polygon) : Big (Multipolygon.new l >>= fun a => pure (Geom.multipolygon a)) := by
  intro m h
  unfold Multipolygon.new at h
  by_cases k : l.length < 2
  · rw [if_pos k] at h; cases h
  · rw [if_neg k] at h
    cases h
    simpa using k

theorem big_bind {α : Type} {r : Except Err α} {f : α → Except Err Geom} (h : ∀ a, Big (f a)) : Big (r >>= f) := by
  rcases r with e | a
  · intro m h; cases h
  · exact h a

theorem big_ite {c : Prop} [Decidable c] {a b : Except Err Geom} (h1 : Big a) (h2 : Big b) : Big (if c then a else b) := by
  by_cases h : c
  · rw [if_pos h]; exact h1
  · rw [if_neg h]; exact h2

theorem big_empty : Big (pure Geom.empty) := fun m h => by cases h
theorem big_polygon (p : Polygon) : Big (pure (Geom.polygon p)) := fun m h => by cases h
theorem big_same {n : Multipolygon} (h : 2 ≤ n.polygons.length) : Big (pure (Geom.multipolygon n)) := fun m k => by
  cases k; exact h

local macro "big" : tactic => `(tactic| repeat' first
  | exact big_maybe _ | exact big_nonEmpty _ | exact big_new _ | exact big_empty | exact big_polygon _
  | exact big_same (by assumption) | refine big_ite ?_ ?_ | refine big_bind fun _ => ?_)

section
variable {p r : Polygon} {m n : Multipolygon}

theorem big_subtract1 : Big (subtractPolygonFromPolygon p r) := by unfold subtractPolygonFromPolygon; big
theorem big_subtract2 : Big (subtractMultipolygonFromPolygon p n) := by unfold subtractMultipolygonFromPolygon; big
theorem big_subtract3 (h : 2 ≤ m.polygons.length) : Big (subtractPolygonFromMultipolygon m r) := by
  unfold subtractPolygonFromMultipolygon; big
theorem big_subtract4 (h : 2 ≤ m.polygons.length) : Big (subtractMultipolygonFromMultipolygon m n) := by
  unfold subtractMultipolygonFromMultipolygon; big
theorem big_intersect1 : Big (intersectPolygonWithPolygon p r) := by unfold intersectPolygonWithPolygon; big
theorem big_intersect2 : Big (intersectPolygonWithMultipolygon p n) := by unfold intersectPolygonWithMultipolygon; big
theorem big_intersect3 : Big (intersectMultipolygonWithPolygon m r) := by unfold intersectMultipolygonWithPolygon; big
theorem big_intersect4 : Big (intersectMultipolygonWithMultipolygon m n) := by
  unfold intersectMultipolygonWithMultipolygon; big
theorem big_unite1 : Big (unitePolygonWithPolygon p r) := by unfold unitePolygonWithPolygon; big
theorem big_unite2 : Big (unitePolygonWithMultipolygon p n) := by unfold unitePolygonWithMultipolygon; big
theorem big_unite3 : Big (uniteMultipolygonWithPolygon m r) := by unfold uniteMultipolygonWithPolygon; big
theorem big_unite4 : Big (uniteMultipolygonWithMultipolygon m n) := by unfold uniteMultipolygonWithMultipolygon; big
theorem big_symmetric1 : Big (symmetricSubtractPolygonFromPolygon p r) := by unfold symmetricSubtractPolygonFromPolygon; big
theorem big_symmetric2 : Big (symmetricSubtractMultipolygonFromPolygon p n) := by
  unfold symmetricSubtractMultipolygonFromPolygon; big
theorem big_symmetric3 : Big (symmetricSubtractPolygonFromMultipolygon m r) := by
  unfold symmetricSubtractPolygonFromMultipolygon; big
theorem big_symmetric4 : Big (symmetricSubtractMultipolygonFromMultipolygon m n) := by
  unfold symmetricSubtractMultipolygonFromMultipolygon; big

end

end Rene
