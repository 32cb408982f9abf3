import Verif.Lemmas.Valid

/-! Points near the contours of valid polygons, and the regular regions. -/

namespace Rene.Sweep
open Rene Spec

theorem Near.trans {q w z : Point} {r r' : ℚ} (h : Near q r w) (k : Near w r' z) : Near q (r + r') z := by
  obtain ⟨h1, h2⟩ := h
  obtain ⟨k1, k2⟩ := k
  rw [abs_lt] at h1 h2 k1 k2
  constructor <;> rw [abs_lt] <;> constructor <;> linarith [h1.1, h1.2, h2.1, h2.2, k1.1, k1.2, k2.1, k2.2]

/-- A point off some segments nearby. -/
theorem generic_exists {E : List Segment} (ne : ∀ s ∈ E, s.start ≠ s.end) (q : Point) {r : ℚ} (r0 : 0 < r) :
    ∃ z, Near q r z ∧ z ∉ segsPts E := by
  obtain ⟨ε, hg⟩ := exists_gen (E.flatMap fun s => [lo s, hi s]).toFinset
  have XE : ∀ s ∈ E, Xe ε (lo s) < Xe ε (hi s) := by
    intro s hs
    refine hg _ ?_ _ ?_ (lo_lt_hi (ne s hs)) <;> simp only [List.mem_toFinset] <;>
      exact List.mem_flatMap.mpr ⟨s, hs, by simp⟩
  obtain ⟨η, η0, hη⟩ := exists_clear XE q
  obtain ⟨η', η0', hη'⟩ := near_lift (ε := ε) (q := q) r0
  have m0 : 0 < min η η' := lt_min η0 η0'
  have m1 := min_le_left η η'
  have m2 := min_le_right η η'
  have ha : |min η η' / 2| = min η η' / 2 := abs_of_pos (by linarith)
  exact ⟨lift ε q (min η η' / 2), hη' _ (by rw [ha]; linarith), (hη _ (by rw [ha]; linarith) (by rw [ha]; linarith)).1⟩

theorem off_contours {p : Polygon} (h : ValidPolygon p) {q : Point} (hq : p.locate q ≠ .boundary) :
    ∀ c ∈ polygonContours p, q ∉ contourPts c := fun c hc ⟨s, hs, k⟩ => hq (polygon_boundary_of_mem h (by
      rw [segsPts_of_sets (polygon_sets h)]
      exact ⟨s, List.mem_flatMap.mpr ⟨c, hc, hs⟩, k⟩))

/-- The location off the contours depends on those in the contours. -/
theorem locate_same {p : Polygon} (h : ValidPolygon p) {q z : Point} (hq : p.locate q ≠ .boundary)
    (k : ∀ c ∈ polygonContours p, locatePointInRegion c z = locatePointInRegion c q) :
    p.locate z = .interior ↔ p.locate q = .interior := by
  rw [(C24_polygon_locate p z).1, (C24_polygon_locate p q).1, k _ (by simp [polygonContours])]
  refine and_congr_right fun _ => forall₂_congr fun c hc => ?_
  rw [k c (by simp [polygonContours, hc])]

/-- Which side of a contour of a polygon is in it. -/
theorem polygon_side {r : Polygon} (v : ValidPolygon r) {K1 K2 : List Contour} {d : Contour}
    (e : polygonContours r = K1 ++ d :: K2) {w : Point} (hw : w ∈ contourPts d) (off : ∀ c ∈ K1 ++ K2, w ∉ contourPts c) :
    ∃ b : Bool, ∀ z, z ∉ contourPts d → (∀ c ∈ K1 ++ K2, locatePointInRegion c z = locatePointInRegion c w) →
      (r.locate z = .interior ↔ decide (locatePointInRegion d z = .interior) = b) := by
  obtain ⟨_, _, v3, v4⟩ := v
  have bw : locatePointInRegion d w = .boundary := (C22_region_boundary d w).mpr hw
  have bw' : locatePointInRegion d w ≠ .exterior := by rw [bw]; decide
  unfold polygonContours at e
  rcases K1 with _ | ⟨a, K1⟩
  · rw [List.nil_append, List.cons.injEq] at e
    obtain ⟨rfl, e2⟩ := e
    refine ⟨true, fun z hz k => ?_⟩
    rw [(C24_polygon_locate r z).1, decide_eq_true_eq]
    refine ⟨fun h => h.1, fun h => ⟨h, fun c hc => ?_⟩⟩
    rw [e2] at hc
    rw [k c (by simpa using hc)]
    refine (off_or (off c (by simpa using hc))).resolve_left fun k' => ?_
    have := (v3 c (by rw [e2]; exact hc) w).1 k'
    rw [bw] at this
    cases this
  · rw [List.cons_append, List.cons.injEq] at e
    obtain ⟨rfl, e2⟩ := e
    have hdh : d ∈ r.holes := by rw [e2]; simp
    refine ⟨false, fun z hz k => ?_⟩
    rw [(C24_polygon_locate r z).1, decide_eq_false_iff_not]
    constructor
    · intro h k'
      rw [h.2 d hdh] at k'; cases k'
    · intro h
      refine ⟨?_, fun c hc => ?_⟩
      · rw [k _ (by simp)]
        exact (off_or (off _ (by simp))).resolve_right ((v3 d hdh w).2 bw)
      · rw [e2] at hc v4
        obtain ⟨p1, p2, p3⟩ := List.pairwise_append.mp v4
        rcases List.mem_append.mp hc with k' | k'
        · rw [k c (by simp [k'])]
          refine (off_or (off c (by simp [k']))).resolve_left fun y => ?_
          exact (p3 c k' d (by simp) w).1 ⟨y, bw'⟩
        · rcases List.mem_cons.mp k' with rfl | k'
          · exact (off_or hz).resolve_left h
          · rw [k c (by simp [k'])]
            refine (off_or (off c (by simp [k']))).resolve_left fun y => ?_
            exact ((List.pairwise_cons.mp p2).1 c k' w).2 ⟨y, bw'⟩

/-- Near a point of the contours of valid polygons there are points inside and outside. -/
theorem outline_sides {res : List Polygon} (V : ValidPolygons res) {E : List Segment} (ne : ∀ s ∈ E, s.start ≠ s.end)
    {q : Point} (hq : q ∈ outlinePts res) {ρ : ℚ} (ρ0 : 0 < ρ) :
    (∃ z, Near q ρ z ∧ z ∉ segsPts E ∧ z ∈ insidePts res) ∧ ∃ z, Near q ρ z ∧ z ∉ segsPts E ∧ z ∉ insidePts res := by
  obtain ⟨d, hd, hqd⟩ := hq
  obtain ⟨r, hr, hdr⟩ := List.mem_flatMap.mp hd
  obtain ⟨R1, R2, rfl⟩ := List.append_of_mem hr
  obtain ⟨K1, K2, eK⟩ := List.append_of_mem hdr
  have v := V.1 r hr
  have nov := V.2.1
  set L := (contoursOf R1 ++ K1) ++ (K2 ++ contoursOf R2) with hL
  have ec : contoursOf (R1 ++ r :: R2) = (contoursOf R1 ++ K1) ++ d :: (K2 ++ contoursOf R2) := by
    rw [contoursOf_append]
    show contoursOf R1 ++ (polygonContours r ++ contoursOf R2) = _
    rw [eK]; simp [List.append_assoc]
  have hp : (contoursOf (R1 ++ r :: R2)).Perm (d :: L) := by rw [ec, hL]; exact List.perm_middle
  have simple : ∀ c ∈ d :: L, SimpleContour c := fun c hc => by
    obtain ⟨p, hp', k⟩ := List.mem_flatMap.mp (hp.mem_iff.mpr hc)
    exact (V.1 p hp').1 c k
  obtain ⟨ε, hg⟩ := exists_gen ((E ++ (d :: L).flatMap Contour.segments).flatMap fun s => [lo s, hi s]).toFinset
  have X : ∀ s ∈ E ++ (d :: L).flatMap Contour.segments, s.start ≠ s.end → Xe ε (lo s) < Xe ε (hi s) := by
    intro s hs k
    refine hg _ ?_ _ ?_ (lo_lt_hi k) <;> simp only [List.mem_toFinset] <;>
      exact List.mem_flatMap.mpr ⟨s, hs, by simp⟩
  have XE : ∀ s ∈ E, Xe ε (lo s) < Xe ε (hi s) := fun s hs => X s (List.mem_append_left _ hs) (ne s hs)
  have XC : ∀ c ∈ d :: L, ∀ s ∈ c.segments, Xe ε (lo s) < Xe ε (hi s) := fun c hc s hs =>
    X s (List.mem_append_right _ (List.mem_flatMap.mpr ⟨c, hc, hs⟩)) ((simple c hc).2.2.1 s hs)
  have nov' : NoOverlap ((d :: L).flatMap Contour.segments) := by
    have : NoOverlap ((contoursOf (R1 ++ r :: R2)).flatMap Contour.segments) := by rw [contoursOf_segments]; exact nov
    exact noOverlap_perm (hp.flatMap_right _) this
  rw [List.flatMap_cons] at nov'
  obtain ⟨w, w1, w2, w3, w4⟩ := dense_side (simple d (by simp)) (XC d (by simp)) hqd (L := L.flatMap Contour.segments)
    (fun t ht s hs => apart_symm ((List.pairwise_append.mp nov'.2).2.2 s hs t ht)) (half_pos ρ0)
  have offL : ∀ c ∈ L, w ∉ contourPts c := fun c hc ⟨s, hs, k⟩ => w3 ⟨s, List.mem_flatMap.mpr ⟨c, hc, hs⟩, k⟩
  obtain ⟨r', r0', hr'⟩ := near_located (ε := ε) (A := L) (q := w) (fun c hc => XC c (List.mem_cons_of_mem _ hc)) offL
  have mK : ∀ c, c ∈ K1 ++ K2 → c ∈ L := fun c hc => by
    rw [hL]; simp only [List.mem_append] at hc ⊢; tauto
  obtain ⟨b, hb⟩ := polygon_side v eK w2 (fun c hc => offL c (mK c hc))
  have rb : r.locate w = .boundary := by
    obtain ⟨s, hs, k⟩ := w2
    refine polygon_boundary_of_mem v ?_
    rw [segsPts_of_sets (polygon_sets v)]
    exact ⟨s, List.mem_flatMap.mpr ⟨d, hdr, hs⟩, k⟩
  obtain ⟨q1, q2, q3⟩ := List.pairwise_append.mp V.2.2
  have other : ∀ p, p ∈ R1 ∨ p ∈ R2 → ∀ z, (∀ c ∈ L, locatePointInRegion c z = locatePointInRegion c w) → p.locate z ≠ .interior := by
    intro p hp z hz k
    have hpr : p ∈ R1 ++ r :: R2 := by rcases hp with z | z <;> simp [z]
    have mp : ∀ c ∈ polygonContours p, c ∈ L := fun c hc => by
      rw [hL]
      rcases hp with z | z
      · exact List.mem_append_left _ (List.mem_append_left _ (List.mem_flatMap.mpr ⟨p, z, hc⟩))
      · exact List.mem_append_right _ (List.mem_append_right _ (List.mem_flatMap.mpr ⟨p, z, hc⟩))
    have nb : p.locate w ≠ .boundary := fun k => by
      rcases (C24_polygon_locate p w).2.mp k with k | ⟨_, _, c, _, e, k, _⟩
      · exact offL p.border (mp _ (by simp [polygonContours])) k
      · exact offL c (mp _ (by simp [polygonContours, e])) k
    have hi := (locate_same (V.1 p hpr) nb fun c hc => hz c (mp c hc)).mp k
    rcases hp with y | y
    · exact (q3 p y r (by simp) w).1 ⟨hi, by rw [rb]; decide⟩
    · exact ((List.pairwise_cons.mp q2).1 p y w).2 ⟨hi, by rw [rb]; decide⟩
  have go : ∀ b' : Bool, ∃ z, Near q ρ z ∧ z ∉ segsPts E ∧ (r.locate z = .interior ↔ b' = b) ∧
      ∀ p, p ∈ R1 ∨ p ∈ R2 → p.locate z ≠ .interior := by
    intro b'
    obtain ⟨z, z1, z2, z3, z4⟩ := w4 (min r' (ρ / 2)) (lt_min r0' (half_pos ρ0)) E XE b'
    have hz : ∀ c ∈ L, locatePointInRegion c z = locatePointInRegion c w := fun c hc =>
      (hr' z (z1.mono (min_le_left _ _)) c hc).2
    refine ⟨z, ?_, z2, ?_, fun p hp => other p hp z hz⟩
    · have := w1.trans (z1.mono (min_le_right _ _))
      rwa [add_halves] at this
    · rw [hb z z3 fun c hc => hz c (mK c hc), z4]
  constructor
  · obtain ⟨z, z1, z2, z3, _⟩ := go b
    exact ⟨z, z1, z2, r, hr, z3.mpr rfl⟩
  · obtain ⟨z, z1, z2, z3, z4⟩ := go (!b)
    refine ⟨z, z1, z2, ?_⟩
    rintro ⟨p, hp, k⟩
    rcases List.mem_append.mp hp with y | y
    · exact z4 p (Or.inl y) k
    · rcases List.mem_cons.mp y with rfl | y
      · have := z3.mp k
        cases b <;> simp at this
      · exact z4 p (Or.inr y) k

/-- Off the contours membership is constant nearby. -/
theorem inside_near {res : List Polygon} (V : ValidPolygons res) {q : Point} (hq : q ∉ outlinePts res) :
    ∃ r > 0, ∀ z, Near q r z → (z ∈ insidePts res ↔ q ∈ insidePts res) := by
  obtain ⟨ε, hg⟩ := exists_gen (((contoursOf res).flatMap Contour.segments).flatMap fun s => [lo s, hi s]).toFinset
  have XC : ∀ c ∈ contoursOf res, ∀ s ∈ c.segments, Xe ε (lo s) < Xe ε (hi s) := by
    intro c hc s hs
    obtain ⟨p, hp', k⟩ := List.mem_flatMap.mp hc
    refine hg _ ?_ _ ?_ (lo_lt_hi (((V.1 p hp').1 c k).2.2.1 s hs)) <;> simp only [List.mem_toFinset] <;>
      exact List.mem_flatMap.mpr ⟨s, List.mem_flatMap.mpr ⟨c, hc, hs⟩, by simp⟩
  obtain ⟨r, r0, hr⟩ := near_located XC (q := q) fun c hc k => hq ⟨c, hc, k⟩
  refine ⟨r, r0, fun z hz => ?_⟩
  have nb : ∀ p ∈ res, p.locate q ≠ .boundary := fun p hp k => by
    rcases (C24_polygon_locate p q).2.mp k with k | ⟨_, _, c, _, e, k, _⟩
    · exact hq ⟨p.border, List.mem_flatMap.mpr ⟨p, hp, by simp [polygonContours]⟩, k⟩
    · exact hq ⟨c, List.mem_flatMap.mpr ⟨p, hp, by simp [polygonContours, e]⟩, k⟩
  refine exists_congr fun p => and_congr_right fun hp => ?_
  exact locate_same (V.1 p hp) (nb p hp) fun c hc => (hr z hz c (List.mem_flatMap.mpr ⟨p, hp, hc⟩)).2

end Rene.Sweep
