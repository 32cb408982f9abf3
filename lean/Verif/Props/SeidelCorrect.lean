import Verif.Lemmas.Seidel.RepPoly
import Verif.Lemmas.Seidel.Inside
import Verif.Lemmas.Seidel.Gap
import Verif.Lemmas.Sweep.ShapeEdges
import Verif.Lemmas.MixedOps
import Verif.Lemmas.ShapedOps
import Verif.Props.Seidel
import Verif.Props.MixedExamples

/-! # C62, C63: what a trapezoidation says of the points -/

namespace Rene
open Seidel Spec Sweep

theorem Spec.multisegment_edgesOk {m : Multisegment} (hne : m.segments ≠ []) (hn : FullyNoded m.segments) (seed : Nat) :
    EdgesOk m.boundingBox (permute (m.segments.mapIdx segmentEdge) seed)
      (m.segments.flatMap fun s => [s.start, s.«end»]) := by
  refine edgesOk_of_rep (rep_segments hn.1) hn hne (own_segments _) ?_ (C29_permute_rearranges _ seed)
  intro p hp
  obtain ⟨s, hs, hp⟩ := List.mem_flatMap.mp hp
  have hm : p ∈ segsPts m.segments := by
    refine ⟨s, hs, ?_⟩
    rcases List.mem_pair.mp hp with rfl | rfl
    · exact start_mem_seg _ _
    · exact end_mem_seg _ _
  unfold Multisegment.boundingBox
  match h : m.segments, hne with
  | t :: ts, _ =>
    rw [h] at hm
    exact (segmentsBoundingBox_tight t ts).1 hm

/-- C62: for every multisegment whose segments are not degenerate and meet at common endpoints only, and for
every seed, the trapezoidation can be built, and it gives every point of the plane the location which
`Multisegment.locate` gives to it. -/
theorem C62_multisegment_located (m : Multisegment) (hne : m.segments ≠ []) (hn : FullyNoded m.segments) (seed : Nat) :
    ∃ T, fromMultisegment m seed = .ok T ∧ ∀ q, T.locate q = some (m.locate q) := by
  obtain ⟨T, hT, h⟩ := fromBox_correct (Spec.multisegment_edgesOk hne hn seed)
  refine ⟨T, hT, fun q => ?_⟩
  obtain ⟨r, hr⟩ := C39_locate_terminates T (Or.inl ⟨m, seed, hT⟩) q
  have hi := C39_multisegment_has_no_interior m seed T hT q
  have hb := h q r hr
  rw [mem_edges (rep_segments hn.1) (C29_permute_rearranges _ seed)] at hb
  obtain ⟨k1, k2⟩ := locateInSegments_iff m.segments q
  rw [hr] at hi ⊢
  unfold Multisegment.locate
  congr 1
  by_cases hq : q ∈ segsPts m.segments
  · rw [hb.mpr hq, k1.mpr hq]
  · have a1 : r ≠ .boundary := fun w => hq (hb.mp w)
    have a2 : locateInSegments m.segments q ≠ .boundary := fun w => hq (k1.mp w)
    have a3 : r ≠ .interior := fun w => hi (by rw [w])
    generalize locateInSegments m.segments q = r' at *
    cases r <;> cases r' <;> simp_all

/-- C62: the containment test of the trapezoidation says exactly which points belong to the segments. -/
theorem C62_multisegment_contains (m : Multisegment) (hne : m.segments ≠ []) (hn : FullyNoded m.segments) (seed : Nat) :
    ∃ T, fromMultisegment m seed = .ok T ∧ ∀ q, ∃ b, T.contains q = some b ∧ (b = true ↔ q ∈ segsPts m.segments) := by
  obtain ⟨T, hT, h⟩ := C62_multisegment_located m hne hn seed
  refine ⟨T, hT, fun q => ⟨_, by unfold Trapezoidation.contains; rw [h q]; rfl, ?_⟩⟩
  rw [← (C21_locate ⟨[]⟩ m q).2.2.1]
  obtain ⟨_, k2⟩ := locateInSegments_iff m.segments q
  have : m.locate q ≠ .interior := k2
  generalize m.locate q = r at *
  cases r <;> simp_all

theorem Spec.polygon_edge_points {p : Polygon} (h : ValidPolygon p) (q : Point) :
    p.locate q = .boundary ↔ q ∈ segsPts ((polygonContours p).flatMap Contour.segments) := by
  constructor
  · intro hq
    unfold polygonContours
    rw [List.flatMap_cons, segsPts_append, Set.mem_union, segsPts_flatMap]
    rcases (C24_valid_polygon_locate p (holesApart h) q).mp hq with w | ⟨_, c, hc, w⟩
    · exact Or.inl w
    · exact Or.inr ⟨c, hc, w⟩
  · intro hq
    rw [← segsPts_of_sets (polygon_sets h)] at hq
    exact polygon_boundary_of_mem h hq

theorem Spec.polygon_edgesOk {p : Polygon} (h : ValidPolygon p)
    (hn : FullyNoded ((polygonContours p).flatMap Contour.segments)) (seed : Nat) :
    EdgesOk p.boundingBox
      (permute (contourEdges p.border .counterclockwise 0 ++ holesEdges p.border.vertices.length p.holes) seed)
      (p.border.vertices ++ p.holes.flatMap Contour.vertices) := by
  have hlen : ∀ c ∈ polygonContours p, c.vertices ≠ [] := by
    intro c hc w
    have := (h.1 c hc).1
    rw [w] at this; simp at this
  have hmem : ∀ v ∈ p.border.vertices ++ p.holes.flatMap Contour.vertices,
      v ∈ segsPts ((polygonContours p).flatMap Contour.segments) := by
    intro v hv
    unfold polygonContours
    rw [List.flatMap_cons, segsPts_append, Set.mem_union, segsPts_flatMap]
    rcases List.mem_append.mp hv with w | w
    · exact Or.inl (vertex_mem_segsPts w)
    · obtain ⟨c, hc, w⟩ := List.mem_flatMap.mp w
      exact Or.inr ⟨c, hc, vertex_mem_segsPts w⟩
  refine edgesOk_of_rep (rep_polygon hlen hn.1) hn ?_ (own_polygon p) ?_ (C29_permute_rearranges _ seed)
  · intro w
    obtain ⟨v, hv⟩ := List.exists_mem_of_ne_nil _ (hlen p.border (by simp [polygonContours]))
    obtain ⟨s, hs, _⟩ := hmem v (List.mem_append_left _ hv)
    rw [w] at hs; simp at hs
  · intro v hv
    refine validPolygon_box h ?_
    show p.locate v ≠ .exterior
    rw [(Spec.polygon_edge_points h v).mpr (hmem v hv)]; decide

/-- C63: for every valid polygon whose edges meet at common endpoints only, and for every seed, the
trapezoidation can be built, and the points it calls BOUNDARY are exactly those which `Polygon.locate` does. -/
theorem C63_polygon_boundary (p : Polygon) (h : ValidPolygon p)
    (hn : FullyNoded ((polygonContours p).flatMap Contour.segments)) (seed : Nat) :
    ∃ T, fromPolygon p seed = .ok T ∧ ∀ q, T.locate q = some .boundary ↔ p.locate q = .boundary := by
  obtain ⟨T, hT, w⟩ := fromBox_correct (Spec.polygon_edgesOk h hn seed)
  refine ⟨T, hT, fun q => ?_⟩
  obtain ⟨r, hr⟩ := C39_locate_terminates T (Or.inr ⟨p, seed, hT⟩) q
  have hlen : ∀ c ∈ polygonContours p, c.vertices ≠ [] := by
    intro c hc w
    have := (h.1 c hc).1
    rw [w] at this; simp at this
  have hb := w q r hr
  rw [mem_edges (rep_polygon hlen hn.1) (C29_permute_rearranges _ seed)] at hb
  rw [Spec.polygon_edge_points h, ← hb, hr, Option.some_inj]

/-- C63: for every valid polygon whose edges meet at common endpoints only, the location of no point depends on
the seed. -/
theorem C63_polygon_seed_free (p : Polygon) (h : ValidPolygon p)
    (hn : FullyNoded ((polygonContours p).flatMap Contour.segments)) (seed seed' : Nat) (T T' : Trapezoidation)
    (hT : fromPolygon p seed = .ok T) (hT' : fromPolygon p seed' = .ok T') (q : Point) : T.locate q = T'.locate q :=
  fromBox_indep (Spec.polygon_edgesOk h hn seed) (Spec.polygon_edgesOk h hn seed')
    ((C29_permute_rearranges _ seed).trans (C29_permute_rearranges _ seed').symm) hT hT' q

/-- From a point, through the inside of the polygon, a point strictly inside of the edge which joins the last vertex
of the border or of a hole to the first one can be seen. -/
def Spec.SeesClosingEdge (p : Polygon) (q : Point) : Prop :=
  ∃ c ∈ p.border :: p.holes, ∃ last, c.vertices.getLast? = some last ∧ ∃ first, c.vertices.head? = some first ∧
    ∃ z ∈ openSeg last first, ∀ w ∈ openSeg q z, p.locate w = .interior

/-- C64: for every valid polygon whose edges meet at common endpoints only, and every seed: all the points which the
trapezoidation calls INTERIOR are so; and the points of the inside which it does not call INTERIOR can see the
edge which closes one of the contours. -/
theorem C64_polygon_interior (p : Polygon) (h : ValidPolygon p)
    (hn : FullyNoded ((polygonContours p).flatMap Contour.segments)) (seed : Nat) :
    ∃ T, fromPolygon p seed = .ok T ∧ ∀ q,
      (T.locate q = some .interior → p.locate q = .interior) ∧
      (p.locate q = .interior → ¬ Spec.SeesClosingEdge p q → T.locate q = some .interior) := by
  obtain ⟨T, hT, hb⟩ := C63_polygon_boundary p h hn seed
  refine ⟨T, hT, fun q => ?_⟩
  obtain ⟨k1, k2⟩ := fromBox_inside h (Spec.polygon_edgesOk h hn seed)
    (ofPolygon h hn.1 (C29_permute_rearranges _ seed)) hT q
  refine ⟨k1, fun hi hs => ?_⟩
  obtain ⟨r, hr⟩ := C39_locate_terminates T (Or.inr ⟨p, seed, hT⟩) q
  rcases r with _ | _ | _
  · have := (hb q).mp hr
    rw [hi] at this; cases this
  · exfalso
    obtain ⟨c, hc, z, hz, hw⟩ := k2 hr hi
    have hv : c.vertices ≠ [] := by
      intro w
      have := (h.1 c hc).1
      rw [w] at this; simp at this
    refine hs ⟨c, hc, _, List.getLast?_eq_some_getLast hv, _, List.head?_eq_some_head hv, z, ?_, hw⟩
    have e1 : lastOf c = c.vertices.getLast hv := by
      unfold lastOf
      rw [List.getLastD_eq_getLast?, List.getLast?_eq_some_getLast hv]; rfl
    have e2 : c.vertices.headD ⟨0, 0⟩ = c.vertices.head hv := by
      rw [List.headD_eq_head?_getD, List.head?_eq_some_head hv]; rfl
    rwa [e1, e2] at hz
  · exact hr

/-- From a point, vertically through the inside of the polygon, a point strictly inside of the edge which joins the last
vertex of the border or of a hole to the first one can be seen. -/
def Spec.SeesClosingEdgeVertically (p : Polygon) (q : Point) : Prop :=
  ∃ c ∈ p.border :: p.holes, ∃ last, c.vertices.getLast? = some last ∧ ∃ first, c.vertices.head? = some first ∧
    ∃ z ∈ openSeg last first, z.x = q.x ∧ ∀ w ∈ openSeg q z, p.locate w = .interior

theorem Spec.ends_of_contour {c : Contour} (h : SimpleContour c) :
    c.vertices.getLast? = some (lastOf c) ∧ c.vertices.head? = some (c.vertices.headD ⟨0, 0⟩) := by
  have hv : c.vertices ≠ [] := by
    intro w
    have := h.1
    rw [w] at this; simp at this
  constructor
  · rw [List.getLast?_eq_some_getLast hv]
    unfold lastOf
    rw [List.getLastD_eq_getLast?, List.getLast?_eq_some_getLast hv]; rfl
  · rw [List.head?_eq_some_head hv, List.headD_eq_head?_getD, List.head?_eq_some_head hv]; rfl

/-- C64: for every valid polygon whose edges meet at common endpoints only, and every seed: the trapezoidation calls
EXTERIOR all the points of the inside which see, over or under them, an edge which closes a contour; and, but for
the points over or under a vertex, it calls EXTERIOR no other point of the inside. -/
theorem C64_polygon_interior_missed (p : Polygon) (h : ValidPolygon p)
    (hn : FullyNoded ((polygonContours p).flatMap Contour.segments)) (seed : Nat) :
    ∃ T, fromPolygon p seed = .ok T ∧ ∀ q, p.locate q = .interior →
      (Spec.SeesClosingEdgeVertically p q → T.locate q = some .exterior) ∧
      ((∀ c ∈ p.border :: p.holes, ∀ v ∈ c.vertices, v.x ≠ q.x) →
        (T.locate q = some .exterior ↔ Spec.SeesClosingEdgeVertically p q)) := by
  obtain ⟨T, hT, hb⟩ := C63_polygon_boundary p h hn seed
  refine ⟨T, hT, fun q hi => ?_⟩
  have he := Spec.polygon_edgesOk h hn seed
  have ho := ofPolygon h hn.1 (C29_permute_rearranges (contourEdges p.border .counterclockwise 0 ++
    holesEdges p.border.vertices.length p.holes) seed)
  have one : Spec.SeesClosingEdgeVertically p q → T.locate q = some .exterior := by
    rintro ⟨c, hc, last, hl, first, hf, z, hz, hx, hw⟩
    obtain ⟨e1, e2⟩ := Spec.ends_of_contour (h.1 c hc)
    rw [e1, Option.some_inj] at hl
    rw [e2, Option.some_inj] at hf
    subst hl hf
    obtain ⟨r, hr⟩ := C39_locate_terminates T (Or.inr ⟨p, seed, hT⟩) q
    have hne : r ≠ .boundary := by
      rintro rfl
      have := (hb q).mp hr
      rw [hi] at this; cases this
    rw [hr, fromBox_closing h he ho hT hi hc hz hx hw hr hne]
  refine ⟨one, fun hx => ⟨fun hr => ?_, one⟩⟩
  obtain ⟨c, hc, z, hz, zx, hw⟩ := fromBox_closing_seen h he ho hT hi (fun v hv => by
    rcases List.mem_append.mp hv with k | k
    · exact hx _ (List.mem_cons_self) v k
    · obtain ⟨c, hc, k⟩ := List.mem_flatMap.mp k
      exact hx c (List.mem_cons_of_mem _ hc) v k) hr
  obtain ⟨e1, e2⟩ := Spec.ends_of_contour (h.1 c hc)
  exact ⟨c, hc, _, e1, _, e2, z, hz, zx, hw⟩

/-- C64: for every valid polygon whose edges meet at common endpoints only, and every seed: the trapezoidation locates
all points of the plane as the polygon does if and only if the edges which close its contours are all vertical. -/
theorem C64_polygon_exact_iff (p : Polygon) (h : ValidPolygon p)
    (hn : FullyNoded ((polygonContours p).flatMap Contour.segments)) (seed : Nat) :
    ∃ T, fromPolygon p seed = .ok T ∧ ((∀ q, T.locate q = some (p.locate q)) ↔
      ∀ c ∈ p.border :: p.holes, ∀ last first, c.vertices.getLast? = some last → c.vertices.head? = some first →
        last.x = first.x) := by
  obtain ⟨T, hT, hb⟩ := C63_polygon_boundary p h hn seed
  obtain ⟨T', hT', hi⟩ := C64_polygon_interior p h hn seed
  obtain ⟨T'', hT'', hm⟩ := C64_polygon_interior_missed p h hn seed
  rw [hT] at hT' hT''
  injection hT' with e
  injection hT'' with e'
  subst e e'
  refine ⟨T, hT, fun H c hc last first hl hf => ?_, fun H q => ?_⟩
  · by_contra hx
    obtain ⟨e1, e2⟩ := Spec.ends_of_contour (h.1 c hc)
    rw [e1, Option.some_inj] at hl
    rw [e2, Option.some_inj] at hf
    subst hl hf
    obtain ⟨q, hq, z, hz, zx, hw⟩ := sees_some h hc hx
    have := (hm q hq).1 ⟨c, hc, _, e1, _, e2, z, hz, zx, hw⟩
    rw [H q, hq] at this
    cases this
  · obtain ⟨r, hr⟩ := C39_locate_terminates T (Or.inr ⟨p, seed, hT⟩) q
    rw [hr, Option.some_inj]
    have b1 := hb q
    have b2 := (hi q).1
    rw [hr, Option.some_inj] at b1 b2
    rcases r with _ | _ | _
    · exact (b1.mp rfl).symm
    · rcases hp : p.locate q with _ | _ | _
      · exact absurd (b1.mpr hp) (by decide)
      · rfl
      · exfalso
        obtain ⟨c, hc, hx⟩ := fromBox_missed h (Spec.polygon_edgesOk h hn seed)
          (ofPolygon h hn.1 (C29_permute_rearranges _ seed)) hT hp hr
        obtain ⟨e1, e2⟩ := Spec.ends_of_contour (h.1 c hc)
        exact hx (H c hc _ _ e1 e2)
    · exact (b2 rfl).symm

/-- Four segments, three of them from one point; end points of three of them are on one vertical line. -/
def Spec.exFork : Multisegment := ⟨[⟨⟨0, 0⟩, ⟨3, 0⟩⟩, ⟨⟨2, 2⟩, ⟨0, 0⟩⟩, ⟨⟨2, -1⟩, ⟨0, 0⟩⟩, ⟨⟨2, -2⟩, ⟨2, -1⟩⟩]⟩

/-- C62: the hypotheses hold in a concrete case. -/
example : Spec.exFork.segments ≠ [] ∧ FullyNoded Spec.exFork.segments :=
  ⟨by decide, fullyNoded_of_nodedB (by decide +kernel)⟩

/-- C63: the hypotheses hold for a square with a square hole. -/
example : ValidPolygon exRing ∧ FullyNoded ((polygonContours exRing).flatMap Contour.segments) ∧
    (fromPolygon exRing 5).toOption.isSome :=
  ⟨exRing_valid, fullyNoded_of_nodedB (by decide +kernel), by decide +kernel⟩

/-- C64: from this point of the inside of that square no closing edge can be seen. -/
example : exRing.locate ⟨5, 3⟩ = .interior ∧ ¬ Spec.SeesClosingEdge exRing ⟨5, 3⟩ := by
  refine ⟨by decide +kernel, ?_⟩
  have side : ∀ y : ℚ, 2 ≤ y → y ≤ 4 → exRing.locate ⟨4, y⟩ = .boundary := by
    intro y h1 h2
    rw [Spec.polygon_edge_points exRing_valid]
    refine ⟨⟨⟨4, 4⟩, ⟨4, 2⟩⟩, by decide +kernel, (4 - y) / 2, by linarith, by linarith, ?_⟩
    unfold lerp
    refine Point.ext' ?_ ?_ <;> simp only <;> ring
  rintro ⟨c, hc, last, hl, first, hf, z, ⟨u, u0, u1, rfl⟩, hw⟩
  have hc' : c = exRing.border ∨ c = ⟨[⟨2, 2⟩, ⟨2, 4⟩, ⟨4, 4⟩, ⟨4, 2⟩]⟩ := by simpa [exRing] using hc
  rcases hc' with rfl | rfl
  · have e1 : last = ⟨0, 6⟩ := by simpa [exRing] using hl.symm
    have e2 : first = ⟨0, 0⟩ := by simpa [exRing] using hf.symm
    subst e1 e2
    have k := hw ⟨4, 3 + (6 - 6 * u - 3) / 5⟩ ⟨1 / 5, by norm_num, by norm_num, by
      unfold lerp; refine Point.ext' ?_ ?_ <;> simp only <;> ring⟩
    rw [side _ (by linarith) (by linarith)] at k
    cases k
  · have e1 : last = ⟨4, 2⟩ := by simpa using hl.symm
    have e2 : first = ⟨2, 2⟩ := by simpa using hf.symm
    subst e1 e2
    have hd : (1 + 2 * u) ≠ 0 := by linarith
    have h1 : 1 / (1 + 2 * u) < 1 := by rw [div_lt_one (by linarith)]; linarith
    have h0 : 0 < 1 / (1 + 2 * u) := div_pos one_pos (by linarith)
    have k := hw ⟨4, 3 - 1 / (1 + 2 * u)⟩ ⟨1 / (1 + 2 * u), h0, h1, by
      unfold lerp; refine Point.ext' ?_ ?_ <;> simp only <;> field_simp <;> ring⟩
    rw [side _ (by linarith) (by linarith)] at k
    cases k

/-- C64: over the hole of that square the closing edge of the hole is seen, and no vertex is over or under the point. -/
example : exRing.locate ⟨3, 1⟩ = .interior ∧ Spec.SeesClosingEdgeVertically exRing ⟨3, 1⟩ ∧
    ∀ c ∈ exRing.border :: exRing.holes, ∀ v ∈ c.vertices, v.x ≠ 3 := by
  refine ⟨by decide +kernel, ⟨⟨[⟨2, 2⟩, ⟨2, 4⟩, ⟨4, 4⟩, ⟨4, 2⟩]⟩, by decide +kernel, ⟨4, 2⟩, rfl, ⟨2, 2⟩, rfl, ⟨3, 2⟩,
    ⟨1 / 2, by norm_num, by norm_num, by unfold lerp; refine Point.ext' ?_ ?_ <;> norm_num⟩, rfl, ?_⟩, by decide +kernel⟩
  refine inside_along exRing_valid (by decide +kernel) ?_
  rintro w ⟨t, t0, t1, rfl⟩ hm
  have hb := polygon_boundary_of_mem exRing_valid hm
  rw [Spec.polygon_edge_points exRing_valid] at hb
  obtain ⟨s, hs, u, u0, u1, e⟩ := hb
  have ex := congrArg Point.x e
  have ey := congrArg Point.y e
  unfold lerp at ex ey
  have hs' : s ∈ ([⟨⟨0, 0⟩, ⟨6, 0⟩⟩, ⟨⟨6, 0⟩, ⟨6, 6⟩⟩, ⟨⟨6, 6⟩, ⟨0, 6⟩⟩, ⟨⟨0, 6⟩, ⟨0, 0⟩⟩, ⟨⟨2, 2⟩, ⟨2, 4⟩⟩,
      ⟨⟨2, 4⟩, ⟨4, 4⟩⟩, ⟨⟨4, 4⟩, ⟨4, 2⟩⟩, ⟨⟨4, 2⟩, ⟨2, 2⟩⟩] : List Segment) := by
    have : ∀ s ∈ (polygonContours exRing).flatMap Contour.segments, s ∈ ([⟨⟨0, 0⟩, ⟨6, 0⟩⟩, ⟨⟨6, 0⟩, ⟨6, 6⟩⟩,
      ⟨⟨6, 6⟩, ⟨0, 6⟩⟩, ⟨⟨0, 6⟩, ⟨0, 0⟩⟩, ⟨⟨2, 2⟩, ⟨2, 4⟩⟩, ⟨⟨2, 4⟩, ⟨4, 4⟩⟩, ⟨⟨4, 4⟩, ⟨4, 2⟩⟩,
      ⟨⟨4, 2⟩, ⟨2, 2⟩⟩] : List Segment) := by decide +kernel
    exact this s hs
  simp only [List.mem_cons, List.not_mem_nil, or_false] at hs'
  rcases hs' with rfl | rfl | rfl | rfl | rfl | rfl | rfl | rfl <;> simp only at ex ey <;> linarith

/-- C64: a polygon with a hole, both with vertical closing edges; and the square above, whose hole is closed by an edge
which is not vertical. -/
example : (∀ c ∈ exRing.border :: [⟨[⟨2, 2⟩, ⟨4, 2⟩, ⟨4, 4⟩, ⟨2, 4⟩]⟩], ∀ last first, c.vertices.getLast? = some last →
      c.vertices.head? = some first → last.x = first.x) ∧
    ValidPolygon ⟨exRing.border, [⟨[⟨2, 2⟩, ⟨4, 2⟩, ⟨4, 4⟩, ⟨2, 4⟩]⟩]⟩ ∧
    ¬ ∀ c ∈ exRing.border :: exRing.holes, ∀ last first, c.vertices.getLast? = some last →
      c.vertices.head? = some first → last.x = first.x := by
  refine ⟨?_, valid_of_validB (by decide +kernel), fun H => ?_⟩
  · intro c hc last first hl hf
    simp only [exRing, List.mem_cons, List.not_mem_nil, or_false] at hc
    rcases hc with rfl | rfl <;> simp at hl hf <;> subst hl hf <;> rfl
  · have := H ⟨[⟨2, 2⟩, ⟨2, 4⟩, ⟨4, 4⟩, ⟨4, 2⟩]⟩ (by decide +kernel) ⟨4, 2⟩ ⟨2, 2⟩ rfl rfl
    revert this
    decide +kernel

/-- C64: in that square, to the right of the hole the inside is found, and over or under the hole it is not. -/
example : exRing.locate ⟨5, 3⟩ = .interior ∧ Spec.locateInPolygon exRing 7 ⟨5, 3⟩ = some (some .interior) ∧
    exRing.locate ⟨3, 1⟩ = .interior ∧ Spec.locateInPolygon exRing 7 ⟨3, 1⟩ = some (some .exterior) := by
  decide +kernel

end Rene
