import Verif.Lemmas.Region
import Verif.Props.Contours
import Verif.Props.Boxes

/-! # C22-C24: location of points in regions, polygons and multipolygons -/

namespace Rene
open Spec

/-- Points of the closed polyline of a contour. -/
def Spec.contourPts (c : Contour) : Set Point := segsPts c.segments

theorem locatePointInRegion_of_mem {c : Contour} {p : Point} (h : p ∈ contourPts c) :
    locatePointInRegion c p = .boundary := (locateInEdges_spec p _ false).1 h

theorem locatePointInRegion_of_not_mem {c : Contour} {p : Point} (h : p ∉ contourPts c) :
    locatePointInRegion c p = if rayParity p c.segments then .interior else .exterior := by
  rw [locatePointInRegion, (locateInEdges_spec p _ false).2 h, Bool.false_xor]

/-- C22: `BOUNDARY` is answered exactly for the points of the contour. -/
theorem C22_region_boundary (c : Contour) (p : Point) :
    locatePointInRegion c p = .boundary ↔ p ∈ contourPts c := by
  constructor
  · intro h
    by_contra hn
    rw [locatePointInRegion_of_not_mem hn] at h
    split at h <;> cases h
  · exact locatePointInRegion_of_mem

theorem rayParity_perm {p : Point} {l l' : List Segment} (h : l.Perm l') :
    rayParity p l = rayParity p l' := by
  induction h with
  | nil => rfl
  | cons x _ ih => simp only [rayParity, ih]
  | swap x y l => simp only [rayParity]; rw [Bool.xor_left_comm]
  | trans _ _ i1 i2 => rw [i1, i2]

theorem rayParity_map_reverse {p : Point} {l : List Segment} (h : p ∉ segsPts l) :
    rayParity p (l.map Segment.reverse) = rayParity p l := by
  induction l with
  | nil => rfl
  | cons e l ih =>
    rw [segsPts_cons] at h
    simp only [List.map_cons, rayParity]
    rw [ih (fun h' => h (Or.inr h'))]
    congr 1
    exact crossesRay_swap (fun h' => h (Or.inl h'))

theorem segsPts_perm {l l' : List Segment} (h : l.Perm l') : segsPts l = segsPts l' := by
  ext p; exact ⟨fun ⟨s, hs, hp⟩ => ⟨s, h.mem_iff.mp hs, hp⟩, fun ⟨s, hs, hp⟩ => ⟨s, h.mem_iff.mpr hs, hp⟩⟩

theorem segPts_reverse' (s : Segment) : segPts s.reverse = segPts s := seg_comm _ _

theorem segsPts_map_reverse (l : List Segment) : segsPts (l.map Segment.reverse) = segsPts l := by
  ext p
  constructor
  · rintro ⟨s, hs, hp⟩
    obtain ⟨t, ht, rfl⟩ := List.mem_map.mp hs
    exact ⟨t, ht, by rwa [segPts_reverse'] at hp⟩
  · rintro ⟨s, hs, hp⟩
    exact ⟨s.reverse, List.mem_map.mpr ⟨s, hs, rfl⟩, by rwa [segPts_reverse']⟩

theorem locate_rotation {l r : List Point} (h : l ~r r) (p : Point) :
    locatePointInRegion ⟨l⟩ p = locatePointInRegion ⟨r⟩ p := by
  have hp : (toContourSegments l).Perm (toContourSegments r) := toContourSegments_rotated h
  by_cases hm : p ∈ contourPts ⟨l⟩
  · rw [locatePointInRegion_of_mem hm, locatePointInRegion_of_mem]
    show p ∈ segsPts (toContourSegments r)
    rw [← segsPts_perm hp]; exact hm
  · rw [locatePointInRegion_of_not_mem hm, locatePointInRegion_of_not_mem]
    · show (if rayParity p (toContourSegments l) = true then _ else _) = _
      rw [rayParity_perm hp]; rfl
    · show p ∉ segsPts (toContourSegments r)
      rw [← segsPts_perm hp]; exact hm

theorem locate_reversal (l : List Point) (p : Point) :
    locatePointInRegion ⟨l.reverse⟩ p = locatePointInRegion ⟨l⟩ p := by
  have hp : (toContourSegments l.reverse).Perm ((toContourSegments l).map Segment.reverse) :=
    toContourSegments_reverse l
  have hs : segsPts (toContourSegments l.reverse) = segsPts (toContourSegments l) := by
    rw [segsPts_perm hp, segsPts_map_reverse]
  by_cases hm : p ∈ contourPts ⟨l⟩
  · rw [locatePointInRegion_of_mem hm, locatePointInRegion_of_mem]
    show p ∈ segsPts (toContourSegments l.reverse)
    rw [hs]; exact hm
  · rw [locatePointInRegion_of_not_mem hm, locatePointInRegion_of_not_mem]
    · show (if rayParity p (toContourSegments l.reverse) = true then _ else _) = _
      rw [rayParity_perm hp, rayParity_map_reverse (l := toContourSegments l) hm]; rfl
    · show p ∉ segsPts (toContourSegments l.reverse)
      rw [hs]; exact hm

/-- C22: the answer depends on the closed curve only, not on the vertex where its list starts nor on its
direction. -/
theorem C22_region_invariance (l r : List Point) (h : SameCycle l r) (p : Point) :
    locatePointInRegion ⟨l⟩ p = locatePointInRegion ⟨r⟩ p := by
  rw [sameCycle_iff] at h
  rcases h with h | h
  · exact locate_rotation h p
  · rw [locate_rotation h p, locate_reversal]

/-- C22: equal contours (`==`) bound the same region. -/
theorem C22_equal_contours (a b : Contour) (ha : a.vertices ≠ []) (hb : b.vertices.Nodup)
    (h : a.eqB b = true) (p : Point) : locatePointInRegion a p = locatePointInRegion b p :=
  C22_region_invariance a.vertices b.vertices ((C18_contour_eq a b ha hb).mp h) p

/-- C23: the two ends of a straight path missing the contour are located alike. -/
theorem C23_constant_on_segment (c : Contour) (p q : Point) (h : Disjoint (seg p q) (contourPts c)) :
    locatePointInRegion c p = locatePointInRegion c q := by
  have hp : p ∉ contourPts c := fun h' => Set.disjoint_left.mp h (start_mem_seg p q) h'
  have hq : q ∉ contourPts c := fun h' => Set.disjoint_left.mp h (end_mem_seg p q) h'
  rw [locatePointInRegion_of_not_mem hp, locatePointInRegion_of_not_mem hq]
  have := rayParity_const (vs := c.vertices) (p := p) (q := q) h.symm
  show (if rayParity p (toContourSegments c.vertices) = true then _ else _) = _
  rw [this]; rfl

/-- `p` and `q` are joined by a polygonal path of any number of straight pieces missing `S`. -/
def Spec.Joinable (S : Set Point) : Point → Point → Prop :=
  Relation.ReflTransGen fun p q => Disjoint (seg p q) S

/-- C23: location is constant on the polygonally connected components of the complement. -/
theorem C23_constant_on_paths (c : Contour) (p q : Point) (h : Joinable (contourPts c) p q) :
    locatePointInRegion c p = locatePointInRegion c q := by
  induction h with
  | refl => rfl
  | tail _ h ih => rw [ih, C23_constant_on_segment c _ _ h]

theorem openSeg_order {a b x : Point} (hab : a ≠ b) (h : x ∈ openSeg a b) :
    (a < x ∧ x < b) ∨ (b < x ∧ x < a) := by
  obtain ⟨h1, h2, h3⟩ := (mem_openSeg_iff hab).mp h
  rcases (mem_seg_iff.mp h1).2 with ⟨k1, k2⟩ | ⟨k1, k2⟩
  · exact Or.inl ⟨lt_of_le_of_ne k1 (Ne.symm h2), lt_of_le_of_ne k2 h3⟩
  · exact Or.inr ⟨lt_of_le_of_ne k1 (Ne.symm h3), lt_of_le_of_ne k2 h2⟩

theorem opposite_of_cross {p q c d x : Point} (hpq : p ≠ q) (hcd : c ≠ d) (h : seg p q ∩ seg c d = {x})
    (h1 : x ∈ openSeg p q) (h2 : x ∈ openSeg c d) : cr c d p * cr c d q < 0 := by
  have hx : cr c d x = 0 := (mem_seg_iff.mp ((mem_openSeg_iff hcd).mp h2).1).1
  have o1 := openSeg_order hpq h1
  have o2 := openSeg_order hcd h2
  obtain ⟨t, t0, t1, rfl⟩ := id h1
  rw [cr_lerp] at hx
  by_cases hp : cr c d p = 0
  · exfalso
    have hq : cr c d q = 0 := by
      rw [hp] at hx
      have : t * cr c d q = 0 := by linarith
      exact (mul_eq_zero.mp this).resolve_left t0.ne'
    have hcr : ∀ y, cr p q y = 0 ↔ cr c d y = 0 := by
      intro y
      have e1 := collinear_symm (a := c) (b := d) (c := p) (d := q) hcd hp hq
      constructor
      · intro hy; exact cr_trans hpq e1.1 e1.2 hy
      · intro hy; exact cr_trans hcd hp hq hy
    have key : ∀ y, y ∈ seg p q → y ∈ seg c d → y = lerp p q t := fun y a b => by
      have : y ∈ seg p q ∩ seg c d := ⟨a, b⟩
      rwa [h] at this
    -- a common point above
    have up : ∀ m, cr c d m = 0 → lerp p q t < m → ((p < lerp p q t ∧ m ≤ q) ∨ (q < lerp p q t ∧ m ≤ p)) →
        ((c < lerp p q t ∧ m ≤ d) ∨ (d < lerp p q t ∧ m ≤ c)) → False := by
      intro m hm hlt a b
      refine hlt.ne' (key m (mem_seg_iff.mpr ⟨(hcr m).mpr hm, ?_⟩) (mem_seg_iff.mpr ⟨hm, ?_⟩))
      · exact a.imp (fun k => ⟨(k.1.trans hlt).le, k.2⟩) (fun k => ⟨(k.1.trans hlt).le, k.2⟩)
      · exact b.imp (fun k => ⟨(k.1.trans hlt).le, k.2⟩) (fun k => ⟨(k.1.trans hlt).le, k.2⟩)
    have cc : cr c d c = 0 := cr_self1 c d
    have dd : cr c d d = 0 := cr_self2 c d
    rcases o1 with ⟨a1, a2⟩ | ⟨a1, a2⟩ <;> rcases o2 with ⟨b1, b2⟩ | ⟨b1, b2⟩
    · rcases le_total q d with k | k
      · exact up q hq a2 (Or.inl ⟨a1, le_rfl⟩) (Or.inl ⟨b1, k⟩)
      · exact up d dd b2 (Or.inl ⟨a1, k⟩) (Or.inl ⟨b1, le_rfl⟩)
    · rcases le_total q c with k | k
      · exact up q hq a2 (Or.inl ⟨a1, le_rfl⟩) (Or.inr ⟨b1, k⟩)
      · exact up c cc b2 (Or.inl ⟨a1, k⟩) (Or.inr ⟨b1, le_rfl⟩)
    · rcases le_total p d with k | k
      · exact up p hp a2 (Or.inr ⟨a1, le_rfl⟩) (Or.inl ⟨b1, k⟩)
      · exact up d dd b2 (Or.inr ⟨a1, k⟩) (Or.inl ⟨b1, le_rfl⟩)
    · rcases le_total p c with k | k
      · exact up p hp a2 (Or.inr ⟨a1, le_rfl⟩) (Or.inr ⟨b1, k⟩)
      · exact up c cc b2 (Or.inr ⟨a1, k⟩) (Or.inr ⟨b1, le_rfl⟩)
  · have e : t * (cr c d p * cr c d q) = - ((1 - t) * (cr c d p * cr c d p)) := by
      have : t * cr c d q = - ((1 - t) * cr c d p) := by linarith
      calc t * (cr c d p * cr c d q) = cr c d p * (t * cr c d q) := by ring
        _ = _ := by rw [this]; ring
    have pos : 0 < (1 - t) * (cr c d p * cr c d p) := mul_pos (by linarith) (mul_self_pos.mpr hp)
    by_contra hn
    have := mul_nonneg t0.le (not_lt.mp hn)
    linarith

/-- C23: crossing exactly one edge, away from its ends, exchanges inside and outside. -/
theorem C23_flips_across_edge (c : Contour) (p q : Point) (before after : List Segment) (e : Segment)
    (he : c.segments = before ++ e :: after) (hpq : p ≠ q) (hes : e.start ≠ e.end)
    (hx : ∃ x, seg p q ∩ segPts e = {x} ∧ x ∈ openSeg p q ∧ x ∈ openSeg e.start e.end)
    (hd : Disjoint (seg p q) (segsPts (before ++ after))) :
    (locatePointInRegion c p = .interior ∧ locatePointInRegion c q = .exterior) ∨
    (locatePointInRegion c p = .exterior ∧ locatePointInRegion c q = .interior) := by
  obtain ⟨x, hx, h1, h2⟩ := hx
  have o1 := opposite_of_cross hpq hes hx h1 h2
  have o2 := opposite_of_cross hes hpq (by rw [Set.inter_comm]; exact hx) h2 h1
  have hf := rayParity_flip (vs := c.vertices) (p := p) (q := q) he hd.symm o1 o2
  have nm : ∀ y, y ∈ seg p q → cr e.start e.end y ≠ 0 → y ∉ contourPts c := by
    rintro y hy hc ⟨s, hs, hys⟩
    rw [he] at hs
    rcases List.mem_append.mp hs with hs | hs
    · exact Set.disjoint_left.mp hd hy ⟨s, List.mem_append_left _ hs, hys⟩
    · rcases List.mem_cons.mp hs with rfl | hs
      · exact hc (mem_seg_iff.mp hys).1
      · exact Set.disjoint_left.mp hd hy ⟨s, List.mem_append_right _ hs, hys⟩
  rw [locatePointInRegion_of_not_mem (nm p (start_mem_seg p q) (left_ne_zero_of_mul o1.ne)),
    locatePointInRegion_of_not_mem (nm q (end_mem_seg p q) (right_ne_zero_of_mul o1.ne))]
  have hf' : rayParity p c.segments = !rayParity q c.segments := hf
  rw [hf']
  cases rayParity q c.segments <;> simp

/-! ### Outside the bounding box -/

theorem rayParity_eq_false {p : Point} {l : List Segment} (h : ∀ e ∈ l, crossesRay e.start e.end p = false) :
    rayParity p l = false := by
  induction l with
  | nil => rfl
  | cons e l ih =>
    simp only [rayParity]
    rw [h e List.mem_cons_self, ih (fun s hs => h s (List.mem_cons_of_mem _ hs))]
    rfl

theorem exterior_of_vertical {c : Contour} {p : Point} {lo hi : ℚ}
    (hv : ∀ q ∈ contourPts c, lo ≤ q.y ∧ q.y ≤ hi) (hp : p.y < lo ∨ hi < p.y) :
    locatePointInRegion c p = .exterior := by
  have hn : p ∉ contourPts c := fun h => by have := hv p h; rcases hp with hp | hp <;> linarith
  rw [locatePointInRegion_of_not_mem hn, rayParity_eq_false]
  · rfl
  · intro e he
    rw [Bool.eq_false_iff, ne_eq, crossesRay_iff]
    have a := hv e.start ⟨e, he, start_mem_seg _ _⟩
    have b := hv e.end ⟨e, he, end_mem_seg _ _⟩
    rintro (⟨h1, h2, -⟩ | ⟨h1, h2, -⟩) <;> rcases hp with hp | hp <;> linarith

theorem exterior_of_horizontal {c : Contour} {p : Point} {lo hi ylo : ℚ}
    (hv : ∀ q ∈ contourPts c, (lo ≤ q.x ∧ q.x ≤ hi) ∧ ylo ≤ q.y) (hp : p.x < lo ∨ hi < p.x) :
    locatePointInRegion c p = .exterior := by
  have hd : Disjoint (seg p ⟨p.x, ylo - 1⟩) (contourPts c) := by
    rw [Set.disjoint_left]
    rintro q ⟨t, -, -, rfl⟩ hq
    have := (hv _ hq).1
    simp only [lerp, sub_self, mul_zero, add_zero] at this
    rcases hp with hp | hp <;> linarith [this.1, this.2]
  rw [C23_constant_on_segment c _ _ hd]
  have hn : (⟨p.x, ylo - 1⟩ : Point) ∉ contourPts c :=
    fun h => Set.disjoint_left.mp hd (end_mem_seg _ _) h
  rw [locatePointInRegion_of_not_mem hn, rayParity_eq_false]
  · rfl
  · intro e he
    rw [Bool.eq_false_iff, ne_eq, crossesRay_iff]
    have a := (hv e.start ⟨e, he, start_mem_seg _ _⟩).2
    have b := (hv e.end ⟨e, he, end_mem_seg _ _⟩).2
    rintro (⟨h1, h2, -⟩ | ⟨h1, h2, -⟩) <;> simp only at h1 h2 <;> linarith

/-- C22: points outside the bounding box are outside of the region. -/
theorem C22_outside_bounding_box (c : Contour) (hc : 3 ≤ c.vertices.length) (p : Point)
    (hp : p ∉ boxPts c.boundingBox) : locatePointInRegion c p = .exterior := by
  have ht := (contour_tight c (by intro e; simp [e] at hc)).1
  by_cases h : p.y < c.boundingBox.minY ∨ c.boundingBox.maxY < p.y
  · exact exterior_of_vertical (fun q hq => ⟨(ht hq).2.2.1, (ht hq).2.2.2⟩) h
  · refine exterior_of_horizontal (ylo := c.boundingBox.minY)
      (fun q hq => ⟨⟨(ht hq).1, (ht hq).2.1⟩, (ht hq).2.2.1⟩) ?_
    by_contra hn
    push Not at h hn
    exact hp ⟨hn.1, hn.2, h.1, h.2⟩

/-- C23: what is joined to a point outside the bounding box is outside; so an inner point cannot be
joined to the outside without meeting the contour. -/
theorem C23_interior_is_enclosed (c : Contour) (hc : 3 ≤ c.vertices.length) (p : Point)
    (hp : locatePointInRegion c p = .interior) (q : Point) (hq : q ∉ boxPts c.boundingBox) :
    ¬ Joinable (contourPts c) p q := by
  intro h
  rw [C23_constant_on_paths c p q h, C22_outside_bounding_box c hc q hq] at hp
  cases hp

/-! ### C24: polygons and multipolygons -/

theorem locateInHoles_interior (p : Point) (l : List Contour) :
    locateInHoles p l = .interior ↔ ∀ h ∈ l, locatePointInRegion h p = .exterior := by
  induction l with
  | nil => simp [locateInHoles]
  | cons h l ih =>
    rw [List.forall_mem_cons, ← ih, locateInHoles]
    rcases locatePointInRegion h p with _ | _ | _ <;> simp

theorem locateInHoles_boundary (p : Point) (l : List Contour) :
    locateInHoles p l = .boundary ↔ ∃ before h after, l = before ++ h :: after ∧
        p ∈ contourPts h ∧ ∀ k ∈ before, locatePointInRegion k p = .exterior := by
  induction l with
  | nil => simp [locateInHoles]
  | cons h l ih =>
    have split : (∃ before k after, h :: l = before ++ k :: after ∧
        p ∈ contourPts k ∧ ∀ k' ∈ before, locatePointInRegion k' p = .exterior) ↔
        p ∈ contourPts h ∨ (locatePointInRegion h p = .exterior ∧
          ∃ before k after, l = before ++ k :: after ∧
          p ∈ contourPts k ∧ ∀ k' ∈ before, locatePointInRegion k' p = .exterior) := by
      constructor
      · rintro ⟨_ | ⟨b, before⟩, k, after, e, hk, hb⟩
        · rw [List.nil_append] at e
          cases e; exact Or.inl hk
        · rw [List.cons_append] at e
          cases e
          rw [List.forall_mem_cons] at hb
          exact Or.inr ⟨hb.1, before, k, after, rfl, hk, hb.2⟩
      · rintro (hk | ⟨hb, before, k, after, rfl, hk, hb'⟩)
        · exact ⟨[], h, l, rfl, hk, by simp⟩
        · exact ⟨h :: before, k, after, rfl, hk, by rw [List.forall_mem_cons]; exact ⟨hb, hb'⟩⟩
    rw [split, ← ih, locateInHoles, ← C22_region_boundary]
    rcases locatePointInRegion h p with _ | _ | _ <;> simp

/-- C24: a polygon's inner points are those strictly inside its border and strictly outside all its
holes; its boundary points are those on the border or, being inside the border, on a hole while outside
the holes listed before it; the rest is outside. -/
theorem C24_polygon_locate (g : Polygon) (p : Point) :
    (g.locate p = .interior ↔ locatePointInRegion g.border p = .interior ∧
      ∀ h ∈ g.holes, locatePointInRegion h p = .exterior) ∧
    (g.locate p = .boundary ↔ p ∈ contourPts g.border ∨
      (locatePointInRegion g.border p = .interior ∧ ∃ before h after, g.holes = before ++ h :: after ∧
        p ∈ contourPts h ∧ ∀ k ∈ before, locatePointInRegion k p = .exterior)) := by
  rw [← locateInHoles_interior, ← locateInHoles_boundary, ← C22_region_boundary, Polygon.locate]
  rcases locatePointInRegion g.border p with _ | _ | _ <;> simp

/-- Holes of a valid polygon: no hole has a boundary point strictly inside another one. -/
def Spec.HolesApart (g : Polygon) : Prop :=
  ∀ h ∈ g.holes, ∀ k ∈ g.holes, ∀ p ∈ contourPts h, locatePointInRegion k p ≠ .interior

/-- C24 for polygons whose holes do not run inside one another: the order of the holes does not matter. -/
theorem C24_valid_polygon_locate (g : Polygon) (hg : HolesApart g) (p : Point) :
    g.locate p = .boundary ↔ p ∈ contourPts g.border ∨
      (locatePointInRegion g.border p = .interior ∧ ∃ h ∈ g.holes, p ∈ contourPts h) := by
  rw [(C24_polygon_locate g p).2]
  refine or_congr_right (and_congr_right fun _ => ?_)
  rw [← locateInHoles_boundary]
  constructor
  · intro h
    obtain ⟨b, k, a, e, hk, -⟩ := (locateInHoles_boundary p _).mp h
    exact ⟨k, by rw [e]; simp, hk⟩
  · rintro ⟨k, hk, hp⟩
    have hno : ∀ k' ∈ g.holes, locatePointInRegion k' p ≠ .interior := fun k' hk' => hg k hk k' hk' p hp
    clear hg
    generalize g.holes = holes at hk hno ⊢
    induction holes with
    | nil => cases hk
    | cons h l ih =>
      rw [List.forall_mem_cons] at hno
      rw [locateInHoles]
      rcases hl : locatePointInRegion h p with _ | _ | _
      · rfl
      · simp only
        refine ih ?_ hno.2
        rcases List.mem_cons.mp hk with rfl | hk
        · rw [(C22_region_boundary _ _).mpr hp] at hl; cases hl
        · exact hk
      · exact absurd hl hno.1

/-- C24: a multipolygon answers what its first polygon not answering `EXTERIOR` does, and `EXTERIOR`
exactly when all its polygons do. -/
theorem C24_multipolygon_locate (m : Multipolygon) (p : Point) :
    (m.locate p = .exterior ↔ ∀ g ∈ m.polygons, g.locate p = .exterior) ∧
    (∀ r, r ≠ .exterior → (m.locate p = r ↔ ∃ before g after, m.polygons = before ++ g :: after ∧
      g.locate p = r ∧ ∀ k ∈ before, k.locate p = .exterior)) := by
  unfold Multipolygon.locate
  induction m.polygons with
  | nil =>
    refine ⟨by simp [locateInPolygons], fun r hr => ?_⟩
    simp [locateInPolygons, hr.symm]
  | cons h l ih =>
    obtain ⟨i1, i2⟩ := ih
    rw [List.forall_mem_cons, ← i1, locateInPolygons]
    by_cases hh : h.locate p = .exterior
    · rw [if_neg (by simp [hh])]
      refine ⟨by simp [hh], fun r hr => ?_⟩
      rw [i2 r hr]
      constructor
      · rintro ⟨b, g, a, rfl, hg, hb⟩
        exact ⟨h :: b, g, a, rfl, hg, by rw [List.forall_mem_cons]; exact ⟨hh, hb⟩⟩
      · rintro ⟨_ | ⟨b, before⟩, k, after, e, hk, hb⟩
        · rw [List.nil_append] at e
          cases e; exact absurd (hk.symm.trans hh) hr
        · rw [List.cons_append] at e
          cases e
          rw [List.forall_mem_cons] at hb
          exact ⟨before, k, after, rfl, hk, hb.2⟩
    · rw [if_pos hh]
      refine ⟨by simp [hh], fun r hr => ?_⟩
      constructor
      · intro e; exact ⟨[], h, l, rfl, e, by simp⟩
      · rintro ⟨_ | ⟨b, before⟩, k, after, e, hk, hb⟩
        · rw [List.nil_append] at e
          cases e; exact hk
        · rw [List.cons_append] at e
          cases e
          rw [List.forall_mem_cons] at hb
          exact absurd hb.1 hh

/-! ### Concrete cases -/

/-- An L-shaped contour. -/
def exampleL : Contour := ⟨[⟨0, 0⟩, ⟨4, 0⟩, ⟨4, 2⟩, ⟨2, 2⟩, ⟨2, 4⟩, ⟨0, 4⟩]⟩

example : locatePointInRegion exampleL ⟨1, 3⟩ = .interior ∧ locatePointInRegion exampleL ⟨3, 3⟩ = .exterior
    ∧ locatePointInRegion exampleL ⟨3, 2⟩ = .boundary ∧ locatePointInRegion exampleL ⟨1, 2⟩ = .interior := by
  decide +kernel

-- hypotheses of `C23_constant_on_segment`: the points (1, 3) and (1, 1) are joined inside
example : Disjoint (seg ⟨1, 3⟩ ⟨1, 1⟩) (contourPts exampleL) := by
  rw [Set.disjoint_left]
  rintro q ⟨t, t0, t1, rfl⟩ ⟨s, hs, u, u0, u1, e⟩
  have hs' : s ∈ [(⟨⟨0, 0⟩, ⟨4, 0⟩⟩ : Segment), ⟨⟨4, 0⟩, ⟨4, 2⟩⟩, ⟨⟨4, 2⟩, ⟨2, 2⟩⟩, ⟨⟨2, 2⟩, ⟨2, 4⟩⟩,
    ⟨⟨2, 4⟩, ⟨0, 4⟩⟩, ⟨⟨0, 4⟩, ⟨0, 0⟩⟩] := hs
  simp only [List.mem_cons, List.not_mem_nil, or_false] at hs'
  rcases hs' with rfl | rfl | rfl | rfl | rfl | rfl <;> rw [Point.eq_iff] at e <;> simp only [lerp] at e <;>
    obtain ⟨e1, e2⟩ := e <;> linarith

-- hypotheses of `C23_flips_across_edge`: from (1, 1) to (1, -1) through the bottom edge only
example : exampleL.segments = [] ++ ⟨⟨0, 0⟩, ⟨4, 0⟩⟩ :: [⟨⟨4, 0⟩, ⟨4, 2⟩⟩, ⟨⟨4, 2⟩, ⟨2, 2⟩⟩, ⟨⟨2, 2⟩, ⟨2, 4⟩⟩,
    ⟨⟨2, 4⟩, ⟨0, 4⟩⟩, ⟨⟨0, 4⟩, ⟨0, 0⟩⟩] := rfl

/-- A square with a square hole. -/
def exampleHoled : Polygon := ⟨⟨[⟨0, 0⟩, ⟨4, 0⟩, ⟨4, 4⟩, ⟨0, 4⟩]⟩, [⟨[⟨1, 1⟩, ⟨2, 1⟩, ⟨2, 2⟩, ⟨1, 2⟩]⟩]⟩

example : exampleHoled.locate ⟨3, 3⟩ = .interior ∧ exampleHoled.locate ⟨3/2, 3/2⟩ = .exterior ∧
    exampleHoled.locate ⟨3/2, 1⟩ = .boundary ∧ exampleHoled.locate ⟨4, 1⟩ = .boundary := by decide +kernel

example : HolesApart exampleHoled := by
  intro h hh k hk p hp
  have e : h = k := by
    have a : h ∈ [_] := hh
    have b : k ∈ [_] := hk
    rw [List.mem_singleton] at a b; rw [a, b]
  rw [← e, (C22_region_boundary _ _).mpr hp]; simp

end Rene
