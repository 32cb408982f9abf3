import Verif.Lemmas.Dense

/-! Polygons are valid as soon as this is seen at the points off given segments. -/

namespace Rene.Sweep
open Rene Spec

theorem off_or {c : Contour} {q : Point} (h : q ∉ contourPts c) :
    locatePointInRegion c q = .interior ∨ locatePointInRegion c q = .exterior := by
  have : locatePointInRegion c q ≠ .boundary := fun k => h ((C22_region_boundary c q).mp k)
  revert this
  generalize locatePointInRegion c q = x
  cases x <;> decide

theorem off_of_ne {c : Contour} {q : Point} (h : locatePointInRegion c q ≠ .boundary) : q ∉ contourPts c :=
  fun k => h ((C22_region_boundary c q).mpr k)

section
variable {ε : ℚ} {E : List Segment}

/-- A point off the segments with the same locations. -/
theorem generic_near (hE : ∀ s ∈ E, Xe ε (lo s) < Xe ε (hi s)) {A : List Contour}
    (hA : ∀ c ∈ A, ∀ s ∈ c.segments, Xe ε (lo s) < Xe ε (hi s)) {q : Point} (hq : ∀ c ∈ A, q ∉ contourPts c) :
    ∃ z, z ∉ segsPts E ∧ ∀ c ∈ A, locatePointInRegion c z = locatePointInRegion c q := by
  obtain ⟨r, r0, hr⟩ := near_located hA hq
  obtain ⟨η, η0, hη⟩ := exists_clear hE q
  obtain ⟨η', η0', hη'⟩ := near_lift (ε := ε) (q := q) r0
  have m0 : 0 < min η η' := lt_min η0 η0'
  have m1 := min_le_left η η'
  have m2 := min_le_right η η'
  have ha : |min η η' / 2| = min η η' / 2 := abs_of_pos (by linarith)
  refine ⟨lift ε q (min η η' / 2), (hη _ (by rw [ha]; linarith) (by rw [ha]; linarith)).1, fun c hc => ?_⟩
  exact (hr _ (hη' _ (by rw [ha]; linarith)) c hc).2

/-- A point of a contour which is off other contours, with points off the segments on both sides. -/
theorem generic_side (hE : ∀ s ∈ E, Xe ε (lo s) < Xe ε (hi s)) {A : List Contour}
    (hA : ∀ c ∈ A, ∀ s ∈ c.segments, Xe ε (lo s) < Xe ε (hi s)) {q : Point} (hq : ∀ c ∈ A, q ∉ contourPts c)
    {d : Contour} (hd : SimpleContour d) (hX : ∀ s ∈ d.segments, Xe ε (lo s) < Xe ε (hi s)) (hqd : q ∈ contourPts d)
    {L : List Contour} (hLX : ∀ c ∈ L, ∀ s ∈ c.segments, Xe ε (lo s) < Xe ε (hi s))
    (hL : ∀ c ∈ L, ∀ t ∈ c.segments, ∀ s ∈ d.segments, Apart t s) :
    ∃ w, w ∈ contourPts d ∧ (∀ c ∈ A, locatePointInRegion c w = locatePointInRegion c q) ∧ (∀ c ∈ L, w ∉ contourPts c) ∧
      ∀ b : Bool, ∃ z, z ∉ segsPts E ∧ z ∉ contourPts d ∧ decide (locatePointInRegion d z = .interior) = b ∧
        ∀ c, c ∈ A ∨ c ∈ L → locatePointInRegion c z = locatePointInRegion c w := by
  obtain ⟨r, r0, hr⟩ := near_located hA hq
  obtain ⟨w, w1, w2, w3, w4⟩ := dense_side hd hX hqd (L := L.flatMap Contour.segments) (fun t ht s hs => by
    obtain ⟨c, hc, k⟩ := List.mem_flatMap.mp ht
    exact hL c hc t k s hs) r0
  have offL : ∀ c ∈ L, w ∉ contourPts c := fun c hc ⟨s, hs, k⟩ => w3 ⟨s, List.mem_flatMap.mpr ⟨c, hc, hs⟩, k⟩
  refine ⟨w, w2, fun c hc => (hr w w1 c hc).2, offL, fun b => ?_⟩
  obtain ⟨r', r0', hr'⟩ := near_located (ε := ε) (A := A ++ L) (q := w) (fun c hc => by
    rcases List.mem_append.mp hc with k | k
    · exact hA c k
    · exact hLX c k) (fun c hc => by
    rcases List.mem_append.mp hc with k | k
    · exact (hr w w1 c k).1
    · exact offL c k)
  obtain ⟨z, z1, z2, z3, z4⟩ := w4 r' r0' E hE b
  exact ⟨z, z2, z3, z4, fun c hc => (hr' z z1 c (List.mem_append.mpr hc)).2⟩

end

/-- Polygons which look valid off some segments are valid. -/
theorem validPolygons_of {res : List Polygon} (simple : ∀ c ∈ contoursOf res, SimpleContour c)
    (noOv : NoOverlap ((contoursOf res).flatMap Contour.segments)) {E : List Segment} (ne : ∀ s ∈ E, s.start ≠ s.end)
    (gv : ∀ q, q ∉ segsPts E → GenValid res q) : ValidPolygons res := by
  obtain ⟨ε, hg⟩ := exists_gen ((E ++ (contoursOf res).flatMap Contour.segments).flatMap fun s => [lo s, hi s]).toFinset
  have X : ∀ s ∈ E ++ (contoursOf res).flatMap Contour.segments, s.start ≠ s.end → Xe ε (lo s) < Xe ε (hi s) := by
    intro s hs k
    refine hg _ ?_ _ ?_ (lo_lt_hi k) <;> simp only [List.mem_toFinset] <;>
      exact List.mem_flatMap.mpr ⟨s, hs, by simp⟩
  have XE : ∀ s ∈ E, Xe ε (lo s) < Xe ε (hi s) := fun s hs => X s (List.mem_append_left _ hs) (ne s hs)
  have XC : ∀ c ∈ contoursOf res, ∀ s ∈ c.segments, Xe ε (lo s) < Xe ε (hi s) := fun c hc s hs =>
    X s (List.mem_append_right _ (List.mem_flatMap.mpr ⟨c, hc, hs⟩)) ((simple c hc).2.2.1 s hs)
  have mem : ∀ p ∈ res, ∀ c ∈ polygonContours p, c ∈ contoursOf res := fun p hp c hc => List.mem_flatMap.mpr ⟨p, hp, hc⟩
  have nov : NoOverlap (linesOf res) := by have := noOv; rwa [contoursOf_segments] at this
  have novp : ∀ p ∈ res, NoOverlap ((polygonContours p).flatMap Contour.segments) := by
    intro p hp
    obtain ⟨A, B, rfl⟩ := List.append_of_mem hp
    have := nov
    rw [linesOf, List.flatMap_append, List.flatMap_cons] at this
    exact ⟨fun s k => this.1 s (by simp only [List.mem_append]; exact Or.inr (Or.inl k)),
      (List.pairwise_append.mp (List.pairwise_append.mp this.2).2.1).1⟩
  -- a point of a contour, with its sides
  have one : ∀ {c d : Contour} {q : Point}, c ∈ contoursOf res → d ∈ contoursOf res → q ∉ contourPts c → q ∈ contourPts d →
      ∀ b : Bool, ∃ z, z ∉ segsPts E ∧ decide (locatePointInRegion d z = .interior) = b ∧
        locatePointInRegion c z = locatePointInRegion c q := by
    intro c d q hc hd hqc hqd b
    obtain ⟨w, _, w2, _, w4⟩ := generic_side XE (A := [c]) (L := []) (q := q) (d := d)
      (fun c' h' => by rw [List.mem_singleton.mp h']; exact XC c hc) (fun c' h' => by rw [List.mem_singleton.mp h']; exact hqc)
      (simple d hd) (XC d hd) hqd (fun c' h' => absurd h' List.not_mem_nil) (fun c' h' => absurd h' List.not_mem_nil)
    obtain ⟨z, z1, _, z3, z4⟩ := w4 b
    exact ⟨z, z1, z3, by rw [z4 c (Or.inl (by simp)), w2 c (by simp)]⟩
  have two : ∀ {c d : Contour} {q : Point}, c ∈ contoursOf res → d ∈ contoursOf res → q ∉ contourPts c → q ∉ contourPts d →
      ∃ z, z ∉ segsPts E ∧ locatePointInRegion d z = locatePointInRegion d q ∧
        locatePointInRegion c z = locatePointInRegion c q := by
    intro c d q hc hd hqc hqd
    obtain ⟨z, z1, z2⟩ := generic_near XE (A := [c, d]) (q := q) (by
      intro c' h'
      rcases List.mem_cons.mp h' with rfl | h'
      · exact XC _ hc
      · rw [List.mem_singleton.mp h']; exact XC _ hd) (by
      intro c' h'
      rcases List.mem_cons.mp h' with rfl | h'
      · exact hqc
      · rw [List.mem_singleton.mp h']; exact hqd)
    exact ⟨z, z1, z2 d (by simp), z2 c (by simp)⟩
  -- interior of one contour and closed region of another
  have meet : ∀ {c d : Contour} {q : Point}, c ∈ contoursOf res → d ∈ contoursOf res →
      (∀ z, z ∉ segsPts E → ¬ (locatePointInRegion c z = .interior ∧ locatePointInRegion d z = .interior)) →
      ¬ (locatePointInRegion c q = .interior ∧ locatePointInRegion d q ≠ .exterior) := by
    rintro c d q hc hd hno ⟨k1, k2⟩
    have oc : q ∉ contourPts c := off_of_ne (by rw [k1]; decide)
    by_cases hqd : q ∈ contourPts d
    · obtain ⟨z, z1, z2, z3⟩ := one hc hd oc hqd true
      exact hno z z1 ⟨by rw [z3, k1], by rwa [decide_eq_true_eq] at z2⟩
    · obtain ⟨z, z1, z2, z3⟩ := two hc hd oc hqd
      refine hno z z1 ⟨by rw [z3, k1], ?_⟩
      rw [z2]
      exact (off_or hqd).resolve_right k2
  have valid : ∀ p ∈ res, ValidPolygon p := by
    intro p hp
    have hb := mem p hp p.border (by simp [polygonContours])
    have hh : ∀ c ∈ p.holes, c ∈ contoursOf res := fun c hc => mem p hp c (by simp [polygonContours, hc])
    refine ⟨fun c hc => simple c (mem p hp c hc), novp p hp, ?_, ?_⟩
    · intro c hc q
      constructor
      · intro k
        have oc : q ∉ contourPts c := off_of_ne (by rw [k]; decide)
        by_cases hqb : q ∈ contourPts p.border
        · exfalso
          obtain ⟨z, z1, z2, z3⟩ := one (hh c hc) hb oc hqb false
          have := (gv z z1).1 p hp c hc (by rw [z3, k])
          rw [this] at z2
          simp at z2
        · obtain ⟨z, z1, z2, z3⟩ := two (hh c hc) hb oc hqb
          rw [← z2]
          exact (gv z z1).1 p hp c hc (by rw [z3, k])
      · intro k kb
        have hqc : q ∈ contourPts c := (C22_region_boundary c q).mp k
        obtain ⟨z, z1, z2, z3⟩ := one hb (hh c hc) (off_of_ne (by rw [kb]; decide)) hqc true
        have := (gv z z1).1 p hp c hc (by rwa [decide_eq_true_eq] at z2)
        rw [z3, kb] at this
        cases this
    · rw [List.pairwise_iff_getElem]
      intro i j hi hj hij q
      have no : ∀ z, z ∉ segsPts E → ¬ (locatePointInRegion p.holes[i] z = .interior ∧ locatePointInRegion p.holes[j] z = .interior) :=
        fun z hz => List.pairwise_iff_getElem.mp ((gv z hz).2.1 p hp) i j hi hj hij
      exact ⟨meet (hh _ (List.getElem_mem _)) (hh _ (List.getElem_mem _)) no,
        meet (hh _ (List.getElem_mem _)) (hh _ (List.getElem_mem _)) fun z hz k => no z hz k.symm⟩
  refine ⟨valid, nov, ?_⟩
  -- polygons
  have split : ∀ {r : Polygon} {q : Point}, r ∈ res → r.locate q ≠ .exterior → ∀ {A : List Contour},
      (∀ c ∈ A, c ∈ contoursOf res) → (∀ c ∈ A, q ∉ contourPts c) →
      ∃ z, z ∉ segsPts E ∧ r.locate z = .interior ∧ ∀ c ∈ A, locatePointInRegion c z = locatePointInRegion c q := by
    intro r q hr hl A hA hqA
    have hX : ∀ c ∈ A, ∀ s ∈ c.segments, Xe ε (lo s) < Xe ε (hi s) := fun c hc => XC c (hA c hc)
    obtain ⟨v1, v2, v3, v4⟩ := valid r hr
    by_cases hq : ∀ c ∈ polygonContours r, q ∉ contourPts c
    · obtain ⟨z, z1, z2⟩ := generic_near XE (A := polygonContours r ++ A) (q := q) (fun c hc => by
        rcases List.mem_append.mp hc with k | k
        · exact XC c (mem r hr c k)
        · exact hX c k) (fun c hc => by
        rcases List.mem_append.mp hc with k | k
        · exact hq c k
        · exact hqA c k)
      refine ⟨z, z1, ?_, fun c hc => z2 c (List.mem_append_right _ hc)⟩
      have hi : r.locate q = .interior := by
        have nb : r.locate q ≠ .boundary := fun k => by
          rcases (C24_polygon_locate r q).2.mp k with k | ⟨_, _, c, _, e, k, _⟩
          · exact hq r.border (by simp [polygonContours]) k
          · exact hq c (by simp [polygonContours, e]) k
        revert nb hl
        generalize r.locate q = x
        cases x <;> decide
      rw [(C24_polygon_locate r _).1] at hi ⊢
      refine ⟨by rw [z2 _ (by simp [polygonContours])]; exact hi.1, fun c hc => ?_⟩
      rw [z2 c (by simp [polygonContours, hc])]
      exact hi.2 c hc
    · push Not at hq
      obtain ⟨d, hd, hqd⟩ := hq
      have ap : ∀ {B C : List Contour}, (polygonContours r).Perm (d :: (B ++ C)) → ∀ c ∈ B ++ C, ∀ t ∈ c.segments,
          ∀ s ∈ d.segments, Apart t s := by
        intro B C hp c hc t ht s hs
        have := noOverlap_perm (hp.flatMap_right Contour.segments) v2
        rw [List.flatMap_cons] at this
        exact apart_symm ((List.pairwise_append.mp this.2).2.2 s hs t (List.mem_flatMap.mpr ⟨c, hc, ht⟩))
      have bnd : ∀ {w : Point}, w ∈ contourPts d → locatePointInRegion d w = .boundary := fun k =>
        (C22_region_boundary d _).mpr k
      have fin : ∀ {B C : List Contour}, (polygonContours r).Perm (d :: (B ++ C)) → _ := fun {B C} hp =>
        generic_side XE hX hqA (v1 d hd) (XC d (mem r hr d hd)) hqd (L := B ++ C) (fun c hc => XC c (mem r hr c
          (hp.mem_iff.mpr (List.mem_cons_of_mem _ hc)))) (ap hp)
      rcases List.mem_cons.mp hd with rfl | hdh
      · obtain ⟨w, w1, w2, w3, w4⟩ := fin (B := []) (C := r.holes) (List.Perm.refl _)
        obtain ⟨z, z1, z2, z3, z4⟩ := w4 true
        refine ⟨z, z1, (C24_polygon_locate r z).1.mpr ⟨by rwa [decide_eq_true_eq] at z3, fun c hc => ?_⟩, fun c hc => by
          rw [z4 c (Or.inl hc), w2 c hc]⟩
        rw [z4 c (Or.inr hc)]
        refine (off_or (w3 c hc)).resolve_left fun k => ?_
        have := (v3 c hc w).1 k
        rw [bnd w1] at this
        cases this
      · obtain ⟨B, C, e⟩ := List.append_of_mem hdh
        have hp : (polygonContours r).Perm (d :: ((r.border :: B) ++ C)) := by
          unfold polygonContours
          rw [e]
          exact List.Perm.trans (List.Perm.cons _ List.perm_middle) (List.Perm.swap _ _ _)
        obtain ⟨w, w1, w2, w3, w4⟩ := fin hp
        obtain ⟨z, z1, z2, z3, z4⟩ := w4 false
        have bw := bnd w1
        have hdz : locatePointInRegion d z = .exterior :=
          (off_or z2).resolve_left fun k => by rw [k] at z3; simp at z3
        refine ⟨z, z1, (C24_polygon_locate r z).1.mpr ⟨?_, fun c hc => ?_⟩, fun c hc => by
          rw [z4 c (Or.inl hc), w2 c hc]⟩
        · rw [z4 _ (Or.inr (by simp))]
          exact (off_or (w3 _ (by simp))).resolve_right ((v3 d hdh w).2 bw)
        · rw [e] at hc v4
          obtain ⟨p1, p2, p3⟩ := List.pairwise_append.mp v4
          have bw' : locatePointInRegion d w ≠ .exterior := by rw [bw]; decide
          rcases List.mem_append.mp hc with k | k
          · rw [z4 c (Or.inr (by simp [k]))]
            refine (off_or (w3 c (by simp [k]))).resolve_left fun z => ?_
            exact (p3 c k d (by simp) w).1 ⟨z, bw'⟩
          · rcases List.mem_cons.mp k with rfl | k
            · exact hdz
            · rw [z4 c (Or.inr (by simp [k]))]
              refine (off_or (w3 c (by simp [k]))).resolve_left fun z => ?_
              exact ((List.pairwise_cons.mp p2).1 c k w).2 ⟨z, bw'⟩
  have apart2 : ∀ {p r : Polygon} {q : Point}, p ∈ res → r ∈ res →
      (∀ z, z ∉ segsPts E → ¬ (p.locate z = .interior ∧ r.locate z = .interior)) →
      ¬ (p.locate q = .interior ∧ r.locate q ≠ .exterior) := by
    rintro p r q hp hr hno ⟨k1, k2⟩
    have hi := (C24_polygon_locate p q).1.mp k1
    obtain ⟨z, z1, z2, z3⟩ := split hr k2 (A := polygonContours p) (mem p hp) (fun c hc => by
      rcases List.mem_cons.mp hc with rfl | k
      · exact off_of_ne (by rw [hi.1]; decide)
      · exact off_of_ne (by rw [hi.2 c k]; decide))
    refine hno z z1 ⟨(C24_polygon_locate p z).1.mpr ⟨?_, fun c hc => ?_⟩, z2⟩
    · rw [z3 _ (by simp [polygonContours])]; exact hi.1
    · rw [z3 _ (by simp [polygonContours, hc])]; exact hi.2 c hc
  rw [List.pairwise_iff_getElem]
  intro i j hi hj hij q
  have no : ∀ z, z ∉ segsPts E → ¬ (res[i].locate z = .interior ∧ res[j].locate z = .interior) :=
    fun z hz => List.pairwise_iff_getElem.mp (gv z hz).2.2 i j hi hj hij
  exact ⟨apart2 (List.getElem_mem _) (List.getElem_mem _) no,
    apart2 (List.getElem_mem _) (List.getElem_mem _) fun z hz k => no z hz k.symm⟩

end Rene.Sweep
