import Verif.Lemmas.Sweep.ShpRelPts
import Verif.Lemmas.ShapedCore

/-! The relation of two polygons or multipolygons: the parts which are left out do not matter. -/

namespace Rene
open Spec Sweep

/-- The polygon without the holes away from the box. -/
def cutPolygon (K : Box) (p : Polygon) : Polygon :=
  { p with holes := p.holes.filter fun h => !h.boundingBox.disjointWith K }

theorem cut_sub (K : Box) (p : Polygon) : (polygonContours (cutPolygon K p)).Sublist (polygonContours p) :=
  List.Sublist.cons_cons _ List.filter_sublist

theorem cut_segments {p : Polygon} (h : Oriented p) (K : Box) :
    p.relatedSegments K = (cutPolygon K p).correctlyOrientedSegments :=
  polygon_segments (p := cutPolygon K p) ⟨h.1, fun k hk => h.2 k (List.mem_filter.mp hk).1⟩

theorem flatMap_sub {α : Type} {F G : α → List Segment} {l : List α} (h : ∀ x ∈ l, (F x).Sublist (G x)) :
    (l.flatMap F).Sublist (l.flatMap G) := by
  induction l with
  | nil => exact List.Sublist.refl _
  | cons x l ih =>
    rw [List.flatMap_cons, List.flatMap_cons]
    exact (h x (by simp)).append (ih fun y hy => h y (by simp [hy]))

theorem flatMap_sub' {α : Type} {F : α → List Segment} {l l' : List α} (h : l.Sublist l') :
    (l.flatMap F).Sublist (l'.flatMap F) := by
  induction h with
  | slnil => exact List.Sublist.refl _
  | cons a _ ih => rw [List.flatMap_cons]; exact ih.trans (List.sublist_append_right _ _)
  | cons_cons a _ ih => rw [List.flatMap_cons, List.flatMap_cons]; exact (List.Sublist.refl _).append ih

theorem cut_valid {p : Polygon} (h : ValidPolygon p) (K : Box) : ValidPolygon (cutPolygon K p) := by
  obtain ⟨h1, h2, h3, h4⟩ := h
  exact ⟨fun c hc => h1 c ((cut_sub K p).subset hc), noOverlap_sublist h2 (flatMap_sub' (cut_sub K p)),
    fun k hk => h3 k (List.mem_filter.mp hk).1, h4.filter _⟩

/-! ### Boxes -/

theorem hole_box {c : Contour} (h : SimpleContour c) {z : Point} (hz : locatePointInRegion c z ≠ .exterior) :
    z ∈ boxPts c.boundingBox := by
  by_contra k
  exact hz (C22_outside_bounding_box c h.1 z k)

theorem simple_tight {c : Contour} (h : SimpleContour c) : IsTightBox (segsPts c.segments) c.boundingBox :=
  contour_tight c (by intro e; have := h.1; rw [e] at this; simp at this)

theorem inside_boxes {c d : Contour} (hc : SimpleContour c) (hd : SimpleContour d) (h : Inside c d) :
    d.boundingBox.minX ≤ c.boundingBox.minX ∧ c.boundingBox.maxX ≤ d.boundingBox.maxX ∧
    d.boundingBox.minY ≤ c.boundingBox.minY ∧ c.boundingBox.maxY ≤ d.boundingBox.maxY := by
  have key : ∀ z ∈ segsPts c.segments, z ∈ boxPts d.boundingBox := fun z hz =>
    hole_box hd ((h z).2 (locatePointInRegion_of_mem hz))
  obtain ⟨_, ⟨a, ha, ea⟩, ⟨b, hb, eb⟩, ⟨e, he, ee⟩, f, hf, ef⟩ := simple_tight hc
  refine ⟨?_, ?_, ?_, ?_⟩
  · rw [← ea]; exact (key a ha).1
  · rw [← eb]; exact (key b hb).2.1
  · rw [← ee]; exact (key e he).2.2.1
  · rw [← ef]; exact (key f hf).2.2.2

theorem disjointWith_mono {a b K : Box} (h : b.minX ≤ a.minX ∧ a.maxX ≤ b.maxX ∧ b.minY ≤ a.minY ∧ a.maxY ≤ b.maxY)
    (hb : b.disjointWith K = true) : a.disjointWith K = true := by
  obtain ⟨h1, h2, h3, h4⟩ := h
  unfold Box.disjointWith at *
  simp only [Bool.or_eq_true, decide_eq_true_eq] at *
  rcases hb with ((k | k) | k) | k
  · exact Or.inl (Or.inl (Or.inl (by linarith)))
  · exact Or.inl (Or.inl (Or.inr (by linarith)))
  · exact Or.inl (Or.inr (by linarith))
  · exact Or.inr (by linarith)

theorem disjointWith_symm (a b : Box) : a.disjointWith b = b.disjointWith a := by
  unfold Box.disjointWith
  generalize decide (a.maxX < b.minX) = p
  generalize decide (a.maxY < b.minY) = q
  generalize decide (b.maxX < a.minX) = r
  generalize decide (b.maxY < a.minY) = s
  revert p q r s; decide

/-! ### Locations -/

theorem locateInHoles_filter {z : Point} {g : Contour → Bool} {hs : List Contour}
    (h : ∀ k ∈ hs, g k = false → locatePointInRegion k z = .exterior) :
    locateInHoles z (hs.filter g) = locateInHoles z hs := by
  induction hs with
  | nil => rfl
  | cons k hs ih =>
    have ih := ih fun k hk => h k (List.mem_cons_of_mem _ hk)
    rcases hg : g k with _ | _
    · rw [List.filter_cons_of_neg (by rw [hg]; decide), ih]
      unfold locateInHoles
      rw [h k List.mem_cons_self hg]
      cases hs <;> rfl
    · rw [List.filter_cons_of_pos hg]
      unfold locateInHoles
      rw [ih]

theorem locateInHoles_exterior {z : Point} {hs : List Contour} (h : locateInHoles z hs = .exterior) :
    ∃ k ∈ hs, locatePointInRegion k z = .interior := by
  induction hs with
  | nil => cases h
  | cons k hs ih =>
    unfold locateInHoles at h
    split at h
    · rename_i e; exact ⟨k, List.mem_cons_self, e⟩
    · cases h
    · obtain ⟨k', hk, e⟩ := ih h
      exact ⟨k', List.mem_cons_of_mem _ hk, e⟩

/-- The points of a valid polygon. -/
theorem polygon_exterior {p : Polygon} (h : ValidPolygon p) (z : Point) : p.locate z = .exterior ↔
    locatePointInRegion p.border z = .exterior ∨ ∃ k ∈ p.holes, locatePointInRegion k z = .interior := by
  constructor
  · intro e
    unfold Polygon.locate at e
    split at e
    · exact Or.inr (locateInHoles_exterior e)
    · exact Or.inl e
  · rintro (k | ⟨k, hk, e⟩)
    · unfold Polygon.locate; rw [k]
    · have h3 := (h.2.2.1 k hk z).1 e
      unfold Polygon.locate
      rw [h3]
      show locateInHoles z p.holes = .exterior
      rcases hl : locateInHoles z p.holes with _ | _ | _
      · obtain ⟨A, k', B, eq, hb, _⟩ := (locateInHoles_boundary z _).mp hl
        exact absurd e (holesApart h k' (by rw [eq]; simp) k hk z hb)
      · rfl
      · have := (locateInHoles_interior z _).mp hl k hk
        rw [e] at this; cases this

theorem cut_exterior {p : Polygon} (h : ValidPolygon p) (K : Box) {z : Point} (e : (cutPolygon K p).locate z = .exterior) :
    p.locate z = .exterior := by
  rw [polygon_exterior (cut_valid h K)] at e
  rw [polygon_exterior h]
  exact e.imp_right fun ⟨k, hk, e⟩ => ⟨k, (List.mem_filter.mp hk).1, e⟩

theorem cut_locate {p : Polygon} (h : ValidPolygon p) {K : Box} {z : Point} (hz : z ∈ boxPts K) :
    (cutPolygon K p).locate z = p.locate z := by
  unfold Polygon.locate cutPolygon
  rw [locateInHoles_filter fun k hk hd => ?_]
  by_contra q
  have hb := hole_box (h.1 k (by simp [polygonContours, hk])) q
  have hd : k.boundingBox.disjointWith K = true := by simpa using hd
  have := inter_empty_of_disjointWith hd
  exact (Set.ext_iff.mp this z).mp ⟨hb, hz⟩

theorem border_locate {p : Polygon} {z : Point} (h : p.locate z ≠ .exterior) : locatePointInRegion p.border z ≠ .exterior := by
  intro e; apply h; unfold Polygon.locate; rw [e]

theorem border_locate_interior {p : Polygon} {z : Point} (h : p.locate z = .interior) :
    locatePointInRegion p.border z = .interior := ((C24_polygon_locate p z).1.mp h).1

/-! ### Lists of polygons -/

section
variable {l : List Polygon} {f : Polygon → Bool} {K : Box}

/-- What is passed to the sweep: some of the polygons, without some of the holes. -/
def cutPolygons (K : Box) (f : Polygon → Bool) (l : List Polygon) : List Polygon := (l.filter f).map (cutPolygon K)

theorem mem_cut {r : Polygon} (h : r ∈ cutPolygons K f l) : ∃ p ∈ l, f p = true ∧ cutPolygon K p = r := by
  obtain ⟨p, hp, e⟩ := List.mem_map.mp h
  obtain ⟨h1, h2⟩ := List.mem_filter.mp hp
  exact ⟨p, h1, h2, e⟩

theorem cuts_segments (ho : ∀ p ∈ l, Oriented p) :
    ((l.filter f).flatMap fun p => p.relatedSegments K) = edgesOf (cutPolygons K f l) := by
  unfold edgesOf cutPolygons
  rw [List.flatMap_map]
  exact List.flatMap_congr fun p hp => cut_segments (ho p (List.mem_filter.mp hp).1) K

/-- Two polygons of which one is in a hole of the other one: none of the parts which are left meet inside. -/
theorem cut_apart {p r : Polygon} (hp : ValidPolygon p) (hr : ValidPolygon r)
    (kp : p.boundingBox.disjointWith K = false) (kr : r.boundingBox.disjointWith K = false)
    (hn : (∀ q, ¬ (locatePointInRegion p.border q = .interior ∧ locatePointInRegion r.border q ≠ .exterior)) ∨
      (∃ h ∈ p.holes, Inside r.border h) ∨ ∃ h ∈ r.holes, Inside p.border h) (z : Point) :
    ¬ ((cutPolygon K p).locate z = .interior ∧ (cutPolygon K r).locate z ≠ .exterior) := by
  rintro ⟨a, b⟩
  have a1 : locatePointInRegion p.border z = .interior := border_locate_interior (p := cutPolygon K p) a
  have b1 : locatePointInRegion r.border z ≠ .exterior := border_locate (p := cutPolygon K r) b
  have sb : ∀ {p : Polygon}, ValidPolygon p → SimpleContour p.border := fun h => h.1 _ (by simp [polygonContours])
  have sh : ∀ {p : Polygon} {k : Contour}, ValidPolygon p → k ∈ p.holes → SimpleContour k := fun h hk =>
    h.1 _ (by simp [polygonContours, hk])
  have keep : ∀ {p r : Polygon} {k : Contour}, ValidPolygon p → ValidPolygon r → r.boundingBox.disjointWith K = false →
      k ∈ p.holes → Inside r.border k → k ∈ (cutPolygon K p).holes := by
    intro p r k hp hr kr hk hi
    refine List.mem_filter.mpr ⟨hk, ?_⟩
    rw [Bool.not_eq_true']
    by_contra q
    rw [Bool.not_eq_false] at q
    rw [show r.boundingBox.disjointWith K = true from disjointWith_mono (inside_boxes (sb hr) (sh hp hk) hi) q] at kr
    cases kr
  rcases hn with hn | ⟨k, hk, hi⟩ | ⟨k, hk, hi⟩
  · exact hn z ⟨a1, b1⟩
  · have hk' := keep hp hr kr hk hi
    have := ((C24_polygon_locate _ z).1.mp a).2 k hk'
    have h2 := hi z
    revert b1
    rcases hb : locatePointInRegion r.border z with _ | _ | _
    · exact absurd this (h2.2 hb)
    · exact fun k => absurd rfl k
    · rw [h2.1 hb] at this; cases this
  · have hk' := keep hr hp kp hk hi
    exact b ((polygon_exterior (cut_valid hr K) z).mpr (Or.inr ⟨k, hk', (hi z).1 a1⟩))

theorem cuts_valid (hv : ValidPolygons l) (hn : Nested l) (hk : ∀ p ∈ l, f p = true → p.boundingBox.disjointWith K = false) :
    ValidPolygons (cutPolygons K f l) := by
  obtain ⟨h1, h2, h3⟩ := hv
  refine ⟨fun r hr => ?_, ?_, ?_⟩
  · obtain ⟨p, hp, _, rfl⟩ := mem_cut hr
    exact cut_valid (h1 p hp) K
  · unfold cutPolygons
    rw [List.flatMap_map]
    exact noOverlap_sublist h2 ((flatMap_sub fun p _ => flatMap_sub' (cut_sub K p)).trans (flatMap_sub' List.filter_sublist))
  · unfold cutPolygons
    rw [List.pairwise_map]
    refine List.Pairwise.imp_of_mem ?_ (hn.filter f)
    intro p r hp hr q z
    obtain ⟨p1, p2⟩ := List.mem_filter.mp hp
    obtain ⟨r1, r2⟩ := List.mem_filter.mp hr
    refine ⟨cut_apart (h1 p p1) (h1 r r1) (hk p p1 p2) (hk r r1 r2) ?_ z,
      cut_apart (h1 r r1) (h1 p p1) (hk r r1 r2) (hk p p1 p2) ?_ z⟩
    · exact q.imp_left fun q z => (q z).1
    · rcases q with q | q | q
      · exact Or.inl fun z => (q z).2
      · exact Or.inr (Or.inr q)
      · exact Or.inr (Or.inl q)

/-- The points of the boxes of the polygons. -/
def boxesPts (l : List Polygon) : Set Point := {z | ∃ p ∈ l, z ∈ boxPts p.boundingBox}

theorem region_boxes (hv : ∀ p ∈ l, ValidPolygon p) : region (loc l) ⊆ boxesPts l := by
  intro z hz
  have hz : ¬ locateInPolygons z l = .exterior := hz
  rw [locate_exterior] at hz
  push Not at hz
  obtain ⟨p, hp, k⟩ := hz
  exact ⟨p, hp, validPolygon_box (hv p hp) k⟩

theorem region_cut_boxes (hv : ∀ p ∈ l, ValidPolygon p) : region (loc (cutPolygons K f l)) ⊆ boxesPts l := by
  intro z hz
  obtain ⟨r, hr, k⟩ := region_boxes (l := cutPolygons K f l) (fun r hr => by
    obtain ⟨p, hp, _, rfl⟩ := mem_cut hr
    exact cut_valid (hv p hp) K) hz
  obtain ⟨p, hp, _, rfl⟩ := mem_cut hr
  exact ⟨p, hp, k⟩

theorem cuts_locate (hv : ∀ p ∈ l, ValidPolygon p) {z : Point} (hz : z ∈ boxPts K)
    (hd : ∀ p ∈ l, f p = false → z ∉ boxPts p.boundingBox) : loc (cutPolygons K f l) z = loc l z := by
  induction l with
  | nil => rfl
  | cons p l ih =>
    have ih := ih (fun p hp => hv p (List.mem_cons_of_mem _ hp)) fun p hp => hd p (List.mem_cons_of_mem _ hp)
    unfold loc cutPolygons at ih ⊢
    rcases hf : f p with _ | _
    · rw [List.filter_cons_of_neg (by rw [hf]; decide), ih]
      conv_rhs => unfold locateInPolygons
      have : p.locate z = .exterior := by
        by_contra q
        exact hd p List.mem_cons_self hf (validPolygon_box (hv p List.mem_cons_self) q)
      rw [if_neg (by rw [this]; simp)]
    · rw [List.filter_cons_of_pos hf, List.map_cons]
      unfold locateInPolygons
      rw [cut_locate (hv p List.mem_cons_self) hz, ih]

theorem region_sub_cut (hv : ∀ p ∈ l, ValidPolygon p) (h : l.filter f = l) :
    region (loc l) ⊆ region (loc (cutPolygons K f l)) := by
  intro z hz
  have hz : ¬ locateInPolygons z l = .exterior := hz
  show ¬ locateInPolygons z _ = .exterior
  rw [locate_exterior] at hz ⊢
  intro k
  apply hz
  intro p hp
  refine cut_exterior (hv p hp) K (k _ ?_)
  unfold cutPolygons
  rw [h]
  exact List.mem_map_of_mem hp

theorem cut_self (hv : ∀ p ∈ l, ValidPolygon p) {U : Set Point} (hU : U ⊆ boxPts K)
    (hd : ∀ p ∈ l, f p = false → ∀ z ∈ U, z ∉ boxPts p.boundingBox) (h : region (loc l) ⊆ U) :
    l.filter f = l ∧ cutPolygons K f l = l := by
  have mem : ∀ p ∈ l, ∀ c ∈ polygonContours p, ∃ z ∈ segsPts c.segments, z ∈ U ∧ z ∈ boxPts c.boundingBox := by
    intro p hp c hc
    obtain ⟨hs, ⟨z, hz, _⟩, _⟩ := simple_tight ((hv p hp).1 c hc)
    refine ⟨z, hz, h ?_, hs hz⟩
    show ¬ locateInPolygons z l = .exterior
    rw [locate_exterior]
    intro k
    have hb : z ∈ segsPts p.correctlyOrientedSegments := by
      rw [segsPts_of_sets (polygon_sets (hv p hp)), segsPts_flatMap]
      exact ⟨c, hc, hz⟩
    have := k p hp
    rw [polygon_boundary_of_mem (hv p hp) hb] at this
    cases this
  have e1 : l.filter f = l := by
    refine List.filter_eq_self.mpr fun p hp => ?_
    by_contra q
    obtain ⟨z, _, hz, hb⟩ := mem p hp p.border (by simp [polygonContours])
    exact hd p hp (Bool.eq_false_iff.mpr q) z hz hb
  refine ⟨e1, ?_⟩
  unfold cutPolygons
  rw [e1]
  refine (List.map_congr_left (g := id) fun p hp => ?_).trans (List.map_id l)
  unfold cutPolygon
  have : p.holes.filter (fun h => !h.boundingBox.disjointWith K) = p.holes := by
    refine List.filter_eq_self.mpr fun k hk => ?_
    rw [Bool.not_eq_true']
    by_contra q
    rw [Bool.not_eq_false] at q
    obtain ⟨z, _, hz, hb⟩ := mem p hp k (by simp [polygonContours, hk])
    exact (Set.ext_iff.mp (inter_empty_of_disjointWith q) z).mp ⟨hb, hU hz⟩
  rw [this]; rfl
end

/-! ### The transfer -/

theorem shapedRel_of {P : Bool → Prop} {L L' : Bool → Point → Location} {U : Bool → Set Point} {r : Relation}
    (hU : ∀ b, region (L b) ⊆ U b) (hU' : ∀ b, region (L' b) ⊆ U b) (hL : ∀ b, ∀ z ∈ U (!b), L' b z = L b z)
    (hP : ∀ b, P b ↔ region (L b) ⊆ region (L (!b))) (h : PreRel P L' r) : ShapedRel (L true) (L false) r := by
  have e1 : ∀ {b z}, L b z ≠ .exterior → L' (!b) z = L (!b) z := fun {b z} k => hL (!b) z (by rw [Bool.not_not]; exact hU b k)
  have e2 : ∀ {b z}, L' b z ≠ .exterior → L' (!b) z = L (!b) z := fun {b z} k => hL (!b) z (by rw [Bool.not_not]; exact hU' b k)
  -- both operands at a common point
  have both : ∀ {b z}, L b z ≠ .exterior → L (!b) z ≠ .exterior → L' b z = L b z ∧ L' (!b) z = L (!b) z := by
    intro b z k k'
    refine ⟨?_, e1 k⟩
    have := e1 (b := !b) k'
    rwa [Bool.not_not] at this
  have both' : ∀ {b z}, L' b z ≠ .exterior → L' (!b) z ≠ .exterior → L' b z = L b z ∧ L' (!b) z = L (!b) z := by
    intro b z k k'
    refine ⟨?_, e2 k⟩
    have := e2 (b := !b) k'
    rwa [Bool.not_not] at this
  have ne1 : ∀ {x : Location}, x = .boundary → x ≠ .exterior := by rintro x rfl; decide
  have ne2 : ∀ {x : Location}, x = .interior → x ≠ .exterior := by rintro x rfl; decide
  have p1 := hP true
  have p2 := hP false
  simp only [Bool.not_true, Bool.not_false] at p1 p2
  have meet : ∀ b, (outline (L' b) ∩ outline (L' (!b))).Nonempty → (outline (L b) ∩ outline (L (!b))).Nonempty := by
    rintro b ⟨z, a, k⟩
    obtain ⟨q1, q2⟩ := both' (ne1 a) (ne1 k)
    exact ⟨z, q1.symm.trans a, q2.symm.trans k⟩
  have inn : (inner (L' true) ∩ inner (L' false)).Nonempty ↔ (inner (L true) ∩ inner (L false)).Nonempty := by
    constructor
    · rintro ⟨z, a, k⟩
      obtain ⟨q1, q2⟩ := both' (b := true) (ne2 a) (ne2 k)
      exact ⟨z, q1.symm.trans a, q2.symm.trans k⟩
    · rintro ⟨z, a, k⟩
      obtain ⟨q1, q2⟩ := both (b := true) (ne2 a) (ne2 k)
      exact ⟨z, q1.trans a, q2.trans k⟩
  have bi : ∀ b, (outline (L' b) ∩ inner (L' (!b))).Nonempty → (outline (L b) ∩ inner (L (!b))).Nonempty := by
    rintro b ⟨z, a, k⟩
    obtain ⟨q1, q2⟩ := both' (ne1 a) (ne2 k)
    exact ⟨z, q1.symm.trans a, q2.symm.trans k⟩
  have wi : ∀ b, region (L b) ⊆ region (L (!b)) → region (L' b) ⊆ inner (L' (!b)) → region (L b) ⊆ inner (L (!b)) := by
    intro b s k z hz
    obtain ⟨q1, q2⟩ := both hz (s hz)
    exact q2.symm.trans (k (show L' b z ≠ _ by rw [q1]; exact hz))
  have co : ∀ b, region (L b) ⊆ region (L (!b)) → outline (L' b) ⊆ outline (L' (!b)) → outline (L b) ⊆ outline (L (!b)) := by
    intro b s k z hz
    obtain ⟨q1, q2⟩ := both (ne1 hz) (s (ne1 hz))
    exact q2.symm.trans (k (q1.trans hz))
  cases r <;> simp only [PreRel, ShapedRel, p1, p2] at h ⊢
  case disjoint =>
    ext z
    refine ⟨fun ⟨a, k⟩ => ?_, fun k => absurd k (by simp)⟩
    obtain ⟨q1, q2⟩ := both (b := true) a k
    exact h z ⟨show L' true z ≠ _ by rw [q1]; exact a, show L' false z ≠ _ by rw [show L' false z = _ from q2]; exact k⟩
  case touch => exact ⟨meet true h.1, Set.not_nonempty_iff_eq_empty.mp (fun k => Set.not_nonempty_iff_eq_empty.mpr h.2.1 (inn.mpr k)), h.2.2⟩
  case overlap => exact ⟨inn.mp h.1, h.2⟩
  case equal => exact Set.Subset.antisymm h.1 h.2
  case within => exact ⟨⟨h.1, h.2.1⟩, wi true h.1 h.2.2⟩
  case cover => exact ⟨⟨h.1, h.2.1⟩, wi false h.1 h.2.2⟩
  case component => exact ⟨⟨h.1, h.2.1⟩, co true h.1 h.2.2⟩
  case composite => exact ⟨⟨h.1, h.2.1⟩, co false h.1 h.2.2⟩
  case enclosed => exact ⟨⟨h.1, h.2.1⟩, meet true h.2.2.1, bi true h.2.2.2⟩
  case encloses => exact ⟨⟨h.1, h.2.1⟩, meet false h.2.2.1, bi false h.2.2.2⟩

/-- An operand: the polygons, their box, the polygons which are kept. -/
structure Operand' (l : List Polygon) (B : Box) (f : Polygon → Bool) (K : Box) (U : Set Point) : Prop where
  valid : ValidPolygons l
  nested : Nested l
  oriented : ∀ p ∈ l, Oriented p
  box : boxesPts l ⊆ boxPts B
  keep : ∀ p ∈ l, f p = true → p.boundingBox.disjointWith K = false
  drop : ∀ p ∈ l, f p = false → ∀ z ∈ U, z ∉ boxPts p.boundingBox

theorem relateShaped_spec {l1 l2 : List Polygon} {B1 B2 : Box} {f1 f2 : Polygon → Bool}
    (O1 : Operand' l1 B1 f1 B2 (boxesPts l2)) (O2 : Operand' l2 B2 f2 B1 (boxesPts l1))
    (ne1 : l1.filter f1 ≠ []) (ne2 : l2.filter f2 ≠ []) {m : ℚ}
    (hm : (∀ p ∈ l1, f1 p = true → p.boundingBox.maxX ≤ m) ∨ ∀ p ∈ l2, f2 p = true → p.boundingBox.maxX ≤ m) :
    ∃ r, relateShaped (l1.filter f1) (l2.filter f2) B1 B2 (decide ((l1.filter f1).length = l1.length))
      (decide ((l2.filter f2).length = l2.length)) m = .ok r ∧ ShapedRel (loc l1) (loc l2) r := by
  have v1 := cuts_valid O1.valid O1.nested O1.keep
  have v2 := cuts_valid O2.valid O2.nested O2.keep
  have bound : ∀ {l : List Polygon} {f : Polygon → Bool} {K : Box}, ValidPolygons l → ValidPolygons (cutPolygons K f l) →
      (∀ p ∈ l, f p = true → p.boundingBox.maxX ≤ m) → ∀ z ∈ segsPts (edgesOf (cutPolygons K f l)), z.x ≤ m := by
    intro l f K hv hv' k z hz
    obtain ⟨r, hr, hz⟩ := (segsPts_flatMap _ _ _).mp hz
    have hb := polygon_boundary_of_mem (hv'.1 r hr) hz
    obtain ⟨p, hp, hf, rfl⟩ := mem_cut hr
    have := validPolygon_box (hv'.1 _ hr) (show (cutPolygon K p).locate z ≠ _ by rw [hb]; decide)
    exact this.2.1.trans (k p hp hf)
  obtain ⟨r, hr, hrel⟩ := toRelation_lists v1 v2 (by unfold cutPolygons; simpa using ne1) (by unfold cutPolygons; simpa using ne2)
    (decide ((l1.filter f1).length = l1.length)) (decide ((l2.filter f2).length = l2.length)) (m := m)
    (hm.imp (bound O1.valid v1) (bound O2.valid v2))
  refine ⟨r, ?_, ?_⟩
  · unfold relateShaped
    rw [cuts_segments O1.oriented, cuts_segments O2.oriented]
    exact hr
  · have len : ∀ {l : List Polygon} {f : Polygon → Bool}, (l.filter f).length = l.length ↔ l.filter f = l := fun {l f} =>
      ⟨fun k => List.filter_sublist.eq_of_length k, fun k => by rw [k]⟩
    have key : ∀ {l l' : List Polygon} {B B' : Box} {f f' : Polygon → Bool}, Operand' l B f B' (boxesPts l') →
        Operand' l' B' f' B (boxesPts l) →
        ((decide ((l.filter f).length = l.length) = true ∧
          region (loc (cutPolygons B' f l)) ⊆ region (loc (cutPolygons B f' l'))) ↔ region (loc l) ⊆ region (loc l')) := by
      intro l l' B B' f f' O O'
      have at' : ∀ z ∈ boxesPts l, loc (cutPolygons B f' l') z = loc l' z := fun z hz =>
        cuts_locate O'.valid.1 (O.box hz) fun p hp hf => O'.drop p hp hf z hz
      rw [decide_eq_true_eq, len]
      constructor
      · rintro ⟨k1, k2⟩ z hz
        have := k2 (region_sub_cut O.valid.1 k1 hz)
        show loc l' z ≠ _
        rw [← at' z (region_boxes O.valid.1 hz)]
        exact this
      · intro k
        obtain ⟨c1, c2⟩ := cut_self (K := B') (f := f) O.valid.1 (U := boxesPts l') O'.box O.drop
          (k.trans (region_boxes O'.valid.1))
        refine ⟨c1, ?_⟩
        rw [c2]
        intro z hz
        show loc _ z ≠ _
        rw [at' z (region_boxes O.valid.1 hz)]
        exact k hz
    refine shapedRel_of (L := fun b => loc (if b then l1 else l2)) (U := fun b => boxesPts (if b then l1 else l2))
      (L' := fun b => loc (if b then cutPolygons B2 f1 l1 else cutPolygons B1 f2 l2)) (fun b => ?_) (fun b => ?_)
      (fun b z hz => ?_) (fun b => ?_) hrel
    · cases b
      · exact region_boxes O2.valid.1
      · exact region_boxes O1.valid.1
    · cases b
      · exact region_cut_boxes O2.valid.1
      · exact region_cut_boxes O1.valid.1
    · cases b
      · exact cuts_locate O2.valid.1 (O1.box hz) fun p hp hf => O2.drop p hp hf z hz
      · exact cuts_locate O1.valid.1 (O2.box hz) fun p hp hf => O1.drop p hp hf z hz
    · cases b
      · exact key O2 O1
      · exact key O1 O2

end Rene
