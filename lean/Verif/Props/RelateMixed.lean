import Verif.Model.RelateMixed
import Verif.Lemmas.RelateShaped
import Verif.Props.MixedExamples

/-! # C55: `relate_to` of a linear and a polygonal geometry

What is right for all inputs: operands whose bounding boxes are apart are `DISJOINT`.  What is wrong: segments which the
sweep has passed are never removed from the sweep line, which gives wrong answers and failing `assert`s; the relation of a
polygonal geometry to a linear one is given as the one of the linear to the polygonal; an empty `max`. -/

namespace Rene
open Spec

theorem disjointWith_symm' {a b : Box} (h : a.disjointWith b = true) : b.disjointWith a = true := by
  simp only [Box.disjointWith, Bool.or_eq_true, decide_eq_true_eq] at h ⊢
  tauto

theorem apart_polygon {s : Segment} {p : Polygon} (hp : 3 ≤ p.border.vertices.length)
    (h : s.boundingBox.disjointWith p.boundingBox = true) : segPts s ∩ polygonPts p = ∅ := by
  have := inter_empty_of_disjointWith h
  rw [Set.eq_empty_iff_forall_notMem] at this ⊢
  exact fun q hq => this q ⟨segPts_subset_boundingBox s hq.1, polygon_box hp hq.2⟩

theorem apart_list {l : List Segment} {p : Polygon} (hp : 3 ≤ p.border.vertices.length)
    (h : ∀ s ∈ l, s.boundingBox.disjointWith p.boundingBox = true) : segsPts l ∩ polygonPts p = ∅ := by
  rw [Set.eq_empty_iff_forall_notMem]
  rintro q ⟨⟨s, hs, hq⟩, hq2⟩
  have := apart_polygon hp (h s hs)
  rw [Set.eq_empty_iff_forall_notMem] at this
  exact this q ⟨hq, hq2⟩

theorem filter_apart {α : Type} {l : List α} {f : α → Bool} (h : ∀ x ∈ l, f x = true) :
    (l.filter fun x => !f x) = [] := by
  rw [List.filter_eq_nil_iff]
  intro x hx
  rw [h x hx]; decide

/-- C55: a polygon and a contour or multisegment, none of whose segments has a bounding box which meets that of the polygon,
are `DISJOINT` in either order, and have no common point. -/
theorem C55_polygon_apart (p : Polygon) (g : Multisegmental) (hp : 3 ≤ p.border.vertices.length)
    (h : ∀ s ∈ g.segments, s.boundingBox.disjointWith p.boundingBox = true) (fuel : Nat) :
    relatePolygonToMultisegmental p g fuel = some ⟨true, .ok .disjoint⟩ ∧
    relateMultisegmentalToPolygon g p fuel = some ⟨true, .ok .disjoint⟩ ∧
    segsPts g.segments ∩ polygonPts p = ∅ := by
  have e := filter_apart (f := fun s : Segment => s.boundingBox.disjointWith p.boundingBox) h
  refine ⟨?_, ?_, apart_list hp h⟩
  · unfold relatePolygonToMultisegmental
    by_cases k : p.boundingBox.disjointWith g.boundingBox = true
    · rw [if_pos k]; rfl
    · rw [if_neg k]; simp only [e]; rfl
  · unfold relateMultisegmentalToPolygon
    by_cases k : g.boundingBox.disjointWith p.boundingBox = true
    · rw [if_pos k]; rfl
    · rw [if_neg k]; simp only [e]; rfl

/-- C55: a polygon and a segment with bounding boxes apart are `DISJOINT`, and have no common point. -/
theorem C55_polygon_segment_apart (p : Polygon) (s : Segment) (hp : 3 ≤ p.border.vertices.length)
    (h : s.boundingBox.disjointWith p.boundingBox = true) (fuel : Nat) :
    relatePolygonToSegment p s fuel = some ⟨true, .ok .disjoint⟩ ∧ segPts s ∩ polygonPts p = ∅ := by
  refine ⟨?_, apart_polygon hp h⟩
  unfold relatePolygonToSegment
  rw [if_pos (disjointWith_symm' h)]; rfl

/-- C55: a multipolygon and a segment, whose bounding box meets none of those of the polygons, are `DISJOINT` in either order,
and have no common point. -/
theorem C55_multipolygon_segment_apart (m : Multipolygon) (s : Segment)
    (hm : ∀ p ∈ m.polygons, 3 ≤ p.border.vertices.length)
    (h : ∀ p ∈ m.polygons, p.boundingBox.disjointWith s.boundingBox = true) (fuel : Nat) :
    relateMultipolygonToSegment m s fuel = some ⟨true, .ok .disjoint⟩ ∧
    relateSegmentToMultipolygon s m fuel = some ⟨true, .ok .disjoint⟩ ∧
    segPts s ∩ regionPts m.polygons = ∅ := by
  have e := filter_apart (f := fun p : Polygon => p.boundingBox.disjointWith s.boundingBox) h
  refine ⟨?_, ?_, ?_⟩
  · unfold relateMultipolygonToSegment
    simp only [e]; rfl
  · unfold relateSegmentToMultipolygon
    simp only [e]; rfl
  · rw [Set.eq_empty_iff_forall_notMem]
    rintro q ⟨hq, p, hp, hq2⟩
    have := apart_polygon (hm p hp) (disjointWith_symm' (h p hp))
    rw [Set.eq_empty_iff_forall_notMem] at this
    exact this q ⟨hq, hq2⟩

namespace Spec

/-- The relations of a linear geometry to a polygonal one: the linear geometry is never the larger one. -/
def LinearToShaped (r : Relation) : Prop :=
  r = .disjoint ∨ r = .touch ∨ r = .cross ∨ r = .component ∨ r = .enclosed ∨ r = .within

end Spec

theorem relation_range (state : MixedState) : LinearToShaped state.relation := by
  unfold MixedState.relation LinearToShaped
  cases state.shapedBorderIsSubsetOfLinear <;> cases state.linearIsSubsetOfShaped <;>
    cases state.linearIntersectsShapedInterior <;> cases state.linearIntersectsShapedBorder <;> decide

theorem toRelation_range {linearFirst : Bool} {R : Rel} {fuel : Nat} {sub : Bool} {x : ℚ} {b : Bool} {r : Relation}
    (h : R.toRelation linearFirst fuel sub x = some ⟨b, .ok r⟩) : LinearToShaped r := by
  unfold Rel.toRelation at h
  cases e : R.lin.popEvent with
  | none => rw [e] at h; simp at h
  | some event =>
    rw [e] at h
    simp only [Option.map_eq_some_iff, MixedRun.mk.injEq] at h
    obtain ⟨y, -, -, k⟩ := h
    by_cases c : (y.1.lin.ok && y.2.ok) = true
    · rw [if_pos c, Except.ok.injEq] at k
      rw [← k]; exact relation_range _
    · rw [if_neg c] at k; cases k

theorem exit_range {x b : _} {r : Relation} (h : MixedRun.exit x = some ⟨b, .ok r⟩) (hx : LinearToShaped x) :
    LinearToShaped r := by
  simp only [MixedRun.exit, Option.some.injEq, MixedRun.mk.injEq, Except.ok.injEq] at h
  rw [← h.2]; exact hx

theorem ofOneSegment_range {x : Option MixedRun} {b : Bool} {r : Relation}
    (hx : ∀ b r, x = some ⟨b, .ok r⟩ → LinearToShaped r)
    (h : x.map MixedRun.ofOneSegment = some ⟨b, .ok r⟩) : LinearToShaped r := by
  rw [Option.map_eq_some_iff] at h
  obtain ⟨⟨b', y⟩, k, e⟩ := h
  unfold MixedRun.ofOneSegment at e
  simp only [MixedRun.mk.injEq] at e
  cases y with
  | error z => simp [Except.map] at e
  | ok z =>
    have := hx b' z k
    simp only [Except.map, Except.ok.injEq] at e
    rw [← e.2]
    unfold LinearToShaped at *
    revert this; cases z <;> decide

theorem error_range {x : Option MixedRun} {b b' : Bool} {e : Err} {r : Relation} (hx : x = some ⟨b', .error e⟩)
    (h : x = some ⟨b, .ok r⟩) : LinearToShaped r := by
  rw [hx] at h; simp at h

theorem range_polygon_segment (p : Polygon) (s : Segment) (fuel : Nat) (b : Bool) (r : Relation)
    (h : relatePolygonToSegment p s fuel = some ⟨b, .ok r⟩) : LinearToShaped r := by
  unfold relatePolygonToSegment at h
  by_cases c : p.boundingBox.disjointWith s.boundingBox = true
  · rw [if_pos c] at h; exact exit_range h (Or.inl rfl)
  · rw [if_neg c] at h; exact toRelation_range h

theorem range_polygon_multisegmental (p : Polygon) (g : Multisegmental) (fuel : Nat) (b : Bool) (r : Relation)
    (h : relatePolygonToMultisegmental p g fuel = some ⟨b, .ok r⟩) : LinearToShaped r := by
  unfold relatePolygonToMultisegmental at h
  by_cases c : p.boundingBox.disjointWith g.boundingBox = true
  · rw [if_pos c] at h; exact exit_range h (Or.inl rfl)
  · rw [if_neg c] at h
    generalize (g.segments.filter fun s => !s.boundingBox.disjointWith p.boundingBox) = l at h
    match l, h with
    | [], h => exact exit_range h (Or.inl rfl)
    | [s], h => exact ofOneSegment_range (range_polygon_segment p s fuel) h
    | _ :: _ :: _, h => exact toRelation_range h

theorem range_multipolygon_segment (m : Multipolygon) (s : Segment) (fuel : Nat) (b : Bool) (r : Relation)
    (h : relateMultipolygonToSegment m s fuel = some ⟨b, .ok r⟩) : LinearToShaped r := by
  unfold relateMultipolygonToSegment at h
  beta_reduce at h
  simp only at h
  split_ifs at h with c c2
  · exact exit_range h (Or.inl rfl)
  · simp at h
  · exact toRelation_range h

theorem range_multipolygon_multisegmental (m : Multipolygon) (g : Multisegmental) (fuel : Nat) (b : Bool) (r : Relation)
    (h : relateMultipolygonToMultisegmental m g fuel = some ⟨b, .ok r⟩) : LinearToShaped r := by
  unfold relateMultipolygonToMultisegmental at h
  by_cases c : m.boundingBox.disjointWith g.boundingBox = true
  · rw [if_pos c] at h; exact exit_range h (Or.inl rfl)
  · rw [if_neg c] at h
    generalize (g.segments.filter fun s => !s.boundingBox.disjointWith m.boundingBox) = l at h
    match l, h with
    | [], h => exact exit_range h (Or.inl rfl)
    | [s], h => exact ofOneSegment_range (range_multipolygon_segment m s fuel) h
    | x :: y :: z, h =>
      simp only at h
      split_ifs at h with c1 c2 c3
      · simp at h
      · simp at h
      · simp at h
      · exact toRelation_range h

/-- C55 (finding): for all polygonal and linear geometries `polygonal.relate_to(linear)` is a relation of the linear geometry to
the polygonal one: never `COVER`, `ENCLOSES` or `COMPOSITE`, which are the relations of a polygon to the segments in it. -/
theorem C55_direction (p : Polygon) (m : Multipolygon) (s : Segment) (g : Multisegmental) (fuel : Nat) (b : Bool)
    (r : Relation)
    (h : relatePolygonToSegment p s fuel = some ⟨b, .ok r⟩ ∨ relatePolygonToMultisegmental p g fuel = some ⟨b, .ok r⟩ ∨
      relateMultipolygonToSegment m s fuel = some ⟨b, .ok r⟩ ∨
      relateMultipolygonToMultisegmental m g fuel = some ⟨b, .ok r⟩) :
    LinearToShaped r ∧ r ≠ .cover ∧ r ≠ .encloses ∧ r ≠ .composite := by
  have key : LinearToShaped r := by
    rcases h with h | h | h | h
    · exact range_polygon_segment p s fuel b r h
    · exact range_polygon_multisegmental p g fuel b r h
    · exact range_multipolygon_segment m s fuel b r h
    · exact range_multipolygon_multisegmental m g fuel b r h
  refine ⟨key, ?_⟩
  revert key
  unfold LinearToShaped
  cases r <;> decide

/-! ### Segments apart from the polygon -/

/-- The relation is not one of a part of a polygonal geometry. -/
def Spec.NotPart (r : Relation) : Prop := r ≠ .within ∧ r ≠ .enclosed ∧ r ≠ .component

theorem linearEvent_part {s : MixedState} {b : Bool} (h : s.linearIsSubsetOfShaped = false) :
    (s.linearEvent b).linearIsSubsetOfShaped = false := by
  unfold MixedState.linearEvent; simp [h]

theorem updateGroup_part {lf : Bool} {R : Rel} {s : MixedState} {g : Point × List Nat}
    (h : s.linearIsSubsetOfShaped = false) : (s.updateGroup lf R g).linearIsSubsetOfShaped = false := by
  unfold MixedState.updateGroup
  split
  · exact h
  · split
    · exact linearEvent_part h
    · exact h
  · exact h
  · exact h

theorem update_part {lf : Bool} {R : Rel} {s : MixedState} {l : List Nat} (h : s.linearIsSubsetOfShaped = false) :
    (s.update lf R l).linearIsSubsetOfShaped = false := by
  unfold MixedState.update
  split
  · generalize hg : groupby R.lin.end (l.filter isLeft) = gs
    clear hg
    generalize hs : ({ s with linearIntersectsShapedBorder := true } : MixedState) = s'
    have hs' : s'.linearIsSubsetOfShaped = false := by rw [← hs]; exact h
    clear hs
    induction gs generalizing s' with
    | nil => exact hs'
    | cons a gs ih => exact ih _ (updateGroup_part hs')
  · split
    · exact h
    · split
      · exact linearEvent_part h
      · exact h

theorem relateLoop_part {lf : Bool} {x : ℚ} : ∀ (fuel : Nat) (R : Rel) (s : MixedState) (q : Point) (l : List Nat)
    (r : Rel × MixedState), s.linearIsSubsetOfShaped = false → R.relateLoop lf x fuel s q l = some r →
    r.2.linearIsSubsetOfShaped = false := by
  intro fuel
  induction fuel with
  | zero => intro R s q l r _ h; simp [Rel.relateLoop] at h
  | succ fuel ih =>
    intro R s q l r hs h
    unfold Rel.relateLoop at h
    cases hp : R.lin.popEvent with
    | none =>
      rw [hp] at h
      have h' : some (R, s.update lf R l) = some r := h
      rw [Option.some.injEq] at h'
      rw [← h']
      exact update_part hs
    | some e =>
      rw [hp] at h
      simp only at h
      split_ifs at h with c1 c2 c3 c4
      · exact ih _ _ _ _ _ hs h
      · rw [Option.some.injEq] at h
        rw [← h]; exact update_part hs
      · rw [Option.some.injEq] at h
        rw [← h]; exact linearEvent_part (update_part hs)
      · rw [Option.some.injEq] at h
        rw [← h]; exact update_part hs
      · exact ih _ _ _ _ _ (update_part hs) h

theorem toRelation_part {lf : Bool} {R : Rel} {fuel : Nat} {x : ℚ} {b : Bool} {r : Relation}
    (h : R.toRelation lf fuel false x = some ⟨b, .ok r⟩) : Spec.NotPart r := by
  unfold Rel.toRelation at h
  cases hp : R.lin.popEvent with
  | none => rw [hp] at h; simp at h
  | some e =>
    rw [hp] at h
    simp only [Option.map_eq_some_iff, MixedRun.mk.injEq] at h
    obtain ⟨u, h1, _, h3⟩ := h
    have := relateLoop_part _ _ _ _ _ _ rfl h1
    split_ifs at h3 with c
    rw [Except.ok.injEq] at h3
    rw [← h3]
    unfold MixedState.relation
    rw [this]
    generalize u.2.shapedBorderIsSubsetOfLinear = b1
    generalize u.2.linearIntersectsShapedInterior = b2
    generalize u.2.linearIntersectsShapedBorder = b3
    unfold Spec.NotPart
    revert b1 b2 b3
    decide

theorem exit_part {r r' : Relation} {b : Bool} (h : MixedRun.exit r' = some ⟨b, .ok r⟩) (hr : r' = .disjoint) :
    Spec.NotPart r := by
  unfold MixedRun.exit at h
  simp only [Option.some.injEq, MixedRun.mk.injEq, Except.ok.injEq] at h
  rw [← h.2, hr]
  unfold Spec.NotPart
  decide

theorem ofOneSegment_part {o : Option MixedRun} {b : Bool} {r : Relation}
    (h : o.map MixedRun.ofOneSegment = some ⟨b, .ok r⟩) : Spec.NotPart r := by
  rw [Option.map_eq_some_iff] at h
  obtain ⟨u, _, h⟩ := h
  unfold MixedRun.ofOneSegment at h
  rw [MixedRun.mk.injEq] at h
  cases hu : u.result with
  | error e => rw [hu] at h; simp [Except.map] at h
  | ok v =>
    rw [hu] at h
    have h2 : Relation.ofOneSegment v = r := by simpa [Except.map] using h.2
    rw [← h2]
    unfold Spec.NotPart
    cases v <;> decide

theorem filter_length_ne {α : Type} {p : α → Bool} {l : List α} {x : α} (hx : x ∈ l) (h : p x = false) :
    decide ((l.filter p).length = l.length) = false := by
  rw [decide_eq_false_iff_not, List.length_filter_eq_length_iff]
  intro k
  rw [k x hx] at h
  cases h

/-- C55: a contour or multisegment with a segment whose bounding box is apart from that of a polygon or multipolygon is not reported
as a part of it (`WITHIN`, `ENCLOSED` or `COMPONENT`), whatever the other segments are. -/
theorem C55_outside_segment (p : Polygon) (m : Multipolygon) (g : Multisegmental) (fuel : Nat) (b : Bool) (r : Relation)
    (s : Segment) (hs : s ∈ g.segments)
    (h : (s.boundingBox.disjointWith p.boundingBox = true ∧
        (relateMultisegmentalToPolygon g p fuel = some ⟨b, .ok r⟩ ∨
          relatePolygonToMultisegmental p g fuel = some ⟨b, .ok r⟩)) ∨
      (s.boundingBox.disjointWith m.boundingBox = true ∧
        (relateMultisegmentalToMultipolygon g m fuel = some ⟨b, .ok r⟩ ∨
          relateMultipolygonToMultisegmental m g fuel = some ⟨b, .ok r⟩))) : Spec.NotPart r := by
  rcases h with ⟨hd, h | h⟩ | ⟨hd, h | h⟩
  · unfold relateMultisegmentalToPolygon at h
    have hl := filter_length_ne (p := fun s => !s.boundingBox.disjointWith p.boundingBox) hs (by simp [hd])
    simp only at h
    split_ifs at h with c
    · exact exit_part h rfl
    generalize (g.segments.filter fun s => !s.boundingBox.disjointWith p.boundingBox) = l at h hl
    match l, h with
    | [], h => exact exit_part h rfl
    | [s], h => exact ofOneSegment_part h
    | _ :: _ :: _, h => simp only [hl] at h; exact toRelation_part h
  · unfold relatePolygonToMultisegmental at h
    have hl := filter_length_ne (p := fun s => !s.boundingBox.disjointWith p.boundingBox) hs (by simp [hd])
    simp only at h
    split_ifs at h with c
    · exact exit_part h rfl
    generalize (g.segments.filter fun s => !s.boundingBox.disjointWith p.boundingBox) = l at h hl
    match l, h with
    | [], h => exact exit_part h rfl
    | [s], h => exact ofOneSegment_part h
    | _ :: _ :: _, h => simp only [hl] at h; exact toRelation_part h
  · unfold relateMultisegmentalToMultipolygon at h
    have hl := filter_length_ne (p := fun s => !s.boundingBox.disjointWith m.boundingBox) hs (by simp [hd])
    by_cases c : g.boundingBox.disjointWith m.boundingBox = true
    · rw [if_pos c] at h; exact exit_part h rfl
    rw [if_neg c] at h
    generalize (g.segments.filter fun s => !s.boundingBox.disjointWith m.boundingBox) = l at h hl
    match l, h with
    | [], h => exact exit_part h rfl
    | [s], h => exact ofOneSegment_part h
    | _ :: _ :: _, h =>
      simp only at h
      split_ifs at h with c1 c2 c3
      · exact exit_part h rfl
      · simp at h
      · simp at h
      · simp only [hl] at h; exact toRelation_part h
  · unfold relateMultipolygonToMultisegmental at h
    have hl := filter_length_ne (p := fun s => !s.boundingBox.disjointWith m.boundingBox) hs (by simp [hd])
    by_cases c : m.boundingBox.disjointWith g.boundingBox = true
    · rw [if_pos c] at h; exact exit_part h rfl
    rw [if_neg c] at h
    generalize (g.segments.filter fun s => !s.boundingBox.disjointWith m.boundingBox) = l at h hl
    match l, h with
    | [], h => exact exit_part h rfl
    | [s], h => exact ofOneSegment_part h
    | _ :: _ :: _, h =>
      simp only at h
      split_ifs at h with c1 c2 c3
      · simp at h
      · simp at h
      · simp at h
      · simp only [hl] at h; exact toRelation_part h

/-! ### Findings -/

namespace Spec

/-- A square. -/
def tile : Polygon := ⟨⟨[⟨0, 0⟩, ⟨10, 0⟩, ⟨10, 10⟩, ⟨0, 10⟩]⟩, []⟩
/-- A step. -/
def stair : Polygon := ⟨⟨[⟨0, 0⟩, ⟨10, 0⟩, ⟨10, 8⟩, ⟨4, 8⟩, ⟨4, 4⟩, ⟨0, 4⟩]⟩, []⟩
/-- An arch. -/
def arch : Polygon := ⟨⟨[⟨0, 0⟩, ⟨1, 0⟩, ⟨1, 1⟩, ⟨2, 1⟩, ⟨2, 0⟩, ⟨3, 0⟩, ⟨3, 3⟩, ⟨0, 3⟩]⟩, []⟩
/-- A triangle. -/
def gable : Polygon := ⟨⟨[⟨0, 0⟩, ⟨4, 0⟩, ⟨2, 4⟩]⟩, []⟩
/-- A contour which leaves the triangle. -/
def spike : Contour := ⟨[⟨2, 1⟩, ⟨6, 1⟩, ⟨2, 2⟩]⟩
/-- Two squares apart. -/
def twins : Multipolygon := ⟨[⟨⟨[⟨0, 0⟩, ⟨1, 0⟩, ⟨1, 1⟩, ⟨0, 1⟩]⟩, []⟩, ⟨⟨[⟨9, 0⟩, ⟨10, 0⟩, ⟨10, 1⟩, ⟨9, 1⟩]⟩, []⟩]⟩
/-- Two segments between them. -/
def dashes : Multisegment := ⟨[⟨⟨4, 0⟩, ⟨5, 0⟩⟩, ⟨⟨4, 1 / 2⟩, ⟨5, 1 / 2⟩⟩]⟩

end Spec

/-- C55 (finding): a segment in the interior of a square is `WITHIN` the square, and the square is `WITHIN` the segment. -/
theorem C55_square_within_segment :
    ValidPolygon tile ∧ tile.locate ⟨5, 6⟩ = .interior ∧ tile.locate ⟨6, 6⟩ = .interior ∧
    relateSegmentToPolygon ⟨⟨5, 6⟩, ⟨6, 6⟩⟩ tile 100 = some ⟨true, .ok .within⟩ ∧
    relatePolygonToSegment tile ⟨⟨5, 6⟩, ⟨6, 6⟩⟩ 100 = some ⟨true, .ok .within⟩ :=
  ⟨valid_of_validB (by decide +kernel), by decide +kernel, by decide +kernel, by decide +kernel, by decide +kernel⟩

/-- C55 (finding): segments are never removed from the sweep line.  For a valid polygon and a segment with a point in its
interior the answer is `DISJOINT`, for a polygon with the segment and for a multisegment with the polygon; the segment with the
polygon, which is found in another way, is `WITHIN` it. -/
theorem C55_stale_edge :
    ValidPolygon stair ∧ (⟨5, 6⟩ : Point) ∈ segPts ⟨⟨5, 6⟩, ⟨6, 6⟩⟩ ∧ stair.locate ⟨5, 6⟩ = .interior ∧
    relatePolygonToSegment stair ⟨⟨5, 6⟩, ⟨6, 6⟩⟩ 100 = some ⟨true, .ok .disjoint⟩ ∧
    relateMultisegmentalToPolygon (.multisegment ⟨[⟨⟨5, 6⟩, ⟨6, 6⟩⟩, ⟨⟨5, 7⟩, ⟨6, 7⟩⟩]⟩) stair 100 =
      some ⟨true, .ok .disjoint⟩ ∧
    relateSegmentToPolygon ⟨⟨5, 6⟩, ⟨6, 6⟩⟩ stair 100 = some ⟨true, .ok .within⟩ :=
  ⟨valid_of_validB (by decide +kernel), start_mem_seg _ _, by decide +kernel, by decide +kernel, by decide +kernel,
    by decide +kernel⟩

/-- C55 (finding): for a valid polygon and a segment in its interior an `assert` about collinear segments of the same operand
fails, because an edge which the sweep has passed is compared with a collinear one. -/
theorem C55_assertion :
    ValidPolygon arch ∧ arch.locate ⟨1 / 2, 2⟩ = .interior ∧
    relatePolygonToSegment arch ⟨⟨1 / 2, 2⟩, ⟨5 / 2, 2⟩⟩ 100 = some ⟨true, .error .assertionError⟩ :=
  ⟨valid_of_validB (by decide +kernel), by decide +kernel, by decide +kernel⟩

/-- C55 (finding): a contour which leaves a triangle is `WITHIN` it. -/
theorem C55_outside_point_within :
    ValidPolygon gable ∧ (⟨6, 1⟩ : Point) ∈ segsPts spike.segments ∧ gable.locate ⟨6, 1⟩ = .exterior ∧
    relateMultisegmentalToPolygon (.contour spike) gable 100 = some ⟨true, .ok .within⟩ :=
  ⟨valid_of_validB (by decide +kernel), ⟨⟨⟨6, 1⟩, ⟨2, 2⟩⟩, by decide +kernel, start_mem_seg _ _⟩, by decide +kernel,
    by decide +kernel⟩

/-- C55 (finding): a multisegment between the polygons of a multipolygon: `multisegment.relate_to(multipolygon)` is `DISJOINT`,
`multipolygon.relate_to(multisegment)` raises `ValueError` (`max` of an empty sequence), for any number of iterations. -/
theorem C55_value_error (fuel : Nat) :
    relateMultisegmentalToMultipolygon (.multisegment dashes) twins fuel = some ⟨true, .ok .disjoint⟩ ∧
    relateMultipolygonToMultisegmental twins (.multisegment dashes) fuel = some ⟨true, .error .valueError⟩ := by
  constructor
  · have h1 : Box.disjointWith (Multisegmental.boundingBox (.multisegment dashes)) twins.boundingBox = false := by
      decide +kernel
    have h2 : (Multisegmental.segments (.multisegment dashes)).filter
        (fun s => !s.boundingBox.disjointWith twins.boundingBox) = dashes.segments := by decide +kernel
    have h3 : (twins.polygons.filter
        fun p => !p.boundingBox.disjointWith (Multisegmental.boundingBox (.multisegment dashes))) = [] := by decide +kernel
    unfold relateMultisegmentalToMultipolygon
    simp only [h1, h2, h3]
    rfl
  · have h1 : Box.disjointWith twins.boundingBox (Multisegmental.boundingBox (.multisegment dashes)) = false := by
      decide +kernel
    have h2 : (Multisegmental.segments (.multisegment dashes)).filter
        (fun s => !s.boundingBox.disjointWith twins.boundingBox) = dashes.segments := by decide +kernel
    have h3 : (twins.polygons.filter
        fun p => !p.boundingBox.disjointWith (Multisegmental.boundingBox (.multisegment dashes))) = [] := by decide +kernel
    unfold relateMultipolygonToMultisegmental
    simp only [h1, h2, h3]
    rfl

/-- The hypotheses of `C55_polygon_apart` and `C55_multipolygon_segment_apart` hold in concrete cases. -/
example : relatePolygonToMultisegmental tile (.contour ⟨[⟨20, 0⟩, ⟨30, 0⟩, ⟨20, 5⟩]⟩) 5 = some ⟨true, .ok .disjoint⟩ ∧
    relateMultipolygonToSegment twins ⟨⟨4, 0⟩, ⟨5, 0⟩⟩ 5 = some ⟨true, .ok .disjoint⟩ :=
  ⟨(C55_polygon_apart tile (.contour ⟨[⟨20, 0⟩, ⟨30, 0⟩, ⟨20, 5⟩]⟩) (by decide) (by decide +kernel) 5).1,
    (C55_multipolygon_segment_apart twins ⟨⟨4, 0⟩, ⟨5, 0⟩⟩ (by decide) (by decide +kernel) 5).1⟩

/-- The hypotheses of `C55_outside_segment` hold in a concrete case: one segment inside the tile, one far away. -/
example : (⟨⟨20, 0⟩, ⟨21, 0⟩⟩ : Segment) ∈
      Multisegmental.segments (.multisegment ⟨[⟨⟨1, 1⟩, ⟨2, 2⟩⟩, ⟨⟨20, 0⟩, ⟨21, 0⟩⟩]⟩) ∧
    Box.disjointWith (Segment.boundingBox ⟨⟨20, 0⟩, ⟨21, 0⟩⟩) tile.boundingBox = true ∧
    relateMultisegmentalToPolygon (.multisegment ⟨[⟨⟨1, 1⟩, ⟨2, 2⟩⟩, ⟨⟨20, 0⟩, ⟨21, 0⟩⟩]⟩) tile 100 =
      some ⟨true, .ok .cross⟩ := by
  refine ⟨?_, ?_, ?_⟩ <;> decide +kernel

end Rene
