import Verif.Lemmas.Sweep.ShpAdj
import Verif.Lemmas.MixedOps
import Verif.Spec.Shaped
import Verif.Props.Regions

/-! Operands without two contours through a point inside of an edge. -/

namespace Rene.Sweep
open Rene Spec

theorem SameEdges.mem {l l' : List Segment} (h : SameEdges l l') {t : Segment} (ht : t ∈ l) :
    ∃ t' ∈ l', t = t' ∨ t = t'.reverse := by
  rcases h with h | h
  · exact ⟨t, h.mem_iff.mp ht, Or.inl rfl⟩
  · obtain ⟨t', h1, h2⟩ := List.mem_map.mp (h.mem_iff.mp ht)
    exact ⟨t', h1, Or.inr h2.symm⟩

/-- The swept edges are those of the contours, maybe reversed. -/
theorem edge_of {l : List Polygon} (hv : ∀ p ∈ l, ValidPolygon p) {t : Segment} (ht : t ∈ edgesOf l) :
    ∃ t' ∈ outlineEdges l, t = t' ∨ t = t'.reverse := by
  obtain ⟨p, hp, ht⟩ := List.mem_flatMap.mp ht
  have key : ∀ c ∈ polygonContours p, ∀ o : Orientation, o ≠ .collinear → t ∈ toOrientedSegments c.vertices o →
      ∃ t' ∈ outlineEdges l, t = t' ∨ t = t'.reverse := by
    intro c hc o ho k
    obtain ⟨ws, e, _, _, _, h4⟩ := oriented_edges ((hv p hp).1 c hc) ho
    rw [e] at k
    obtain ⟨t', h1, h2⟩ := h4.mem k
    exact ⟨t', List.mem_flatMap.mpr ⟨c, List.mem_flatMap.mpr ⟨p, hp, hc⟩, h1⟩, h2⟩
  unfold Polygon.correctlyOrientedSegments at ht
  rcases List.mem_append.mp ht with k | k
  · exact key _ (by simp [polygonContours]) _ (by decide) k
  · obtain ⟨c, hc, k⟩ := List.mem_flatMap.mp k
    exact key c (by simp [polygonContours, hc]) _ (by decide) k

theorem dir_open {t t' : Segment} (h : t = t' ∨ t = t'.reverse) : openSeg t.start t.end = openSeg t'.start t'.end ∧
    segPts t = segPts t' ∧ ∀ q, (q = t.start ∨ q = t.end ↔ q = t'.start ∨ q = t'.end) := by
  rcases h with rfl | rfl
  · exact ⟨rfl, rfl, fun q => Iff.rfl⟩
  · exact ⟨openSeg_comm _ _, segPts_reverse' _, fun q => or_comm⟩

theorem noded_of_mem {l : List Segment} (h : FullyNoded l) {s t : Segment} (hs : s ∈ l) (ht : t ∈ l) (hne : s ≠ t) :
    Noded s t := by
  have : Std.Symm Noded := ⟨fun _ _ k => noded_symm k⟩
  exact h.2.forall hs ht hne

/-- The contours with the orientations they are swept in. -/
def sides (l : List Polygon) : List (Contour × Orientation) :=
  l.flatMap fun p => (p.border, .counterclockwise) :: p.holes.map fun c => (c, .clockwise)

theorem contours_sides (l : List Polygon) : contoursOf l = (sides l).map Prod.fst := by
  unfold contoursOf sides
  rw [List.map_flatMap]
  refine List.flatMap_congr fun p _ => ?_
  simp [polygonContours, Function.comp_def]

theorem edges_sides (l : List Polygon) : edgesOf l = (sides l).flatMap fun d => toOrientedSegments d.1.vertices d.2 := by
  unfold sides
  rw [List.flatMap_assoc]
  refine List.flatMap_congr fun p _ => ?_
  rw [List.flatMap_cons, List.flatMap_map]
  rfl

theorem sides_oriented {l : List Polygon} {d : Contour × Orientation} (h : d ∈ sides l) : d.2 ≠ .collinear ∧
    ∃ p ∈ l, d.1 ∈ polygonContours p := by
  obtain ⟨p, hp, h⟩ := List.mem_flatMap.mp h
  rcases List.mem_cons.mp h with rfl | h
  · exact ⟨(fun z => by cases z), p, hp, by simp [polygonContours]⟩
  · obtain ⟨c, hc, rfl⟩ := List.mem_map.mp h
    exact ⟨(fun z => by cases z), p, hp, by simp [polygonContours, hc]⟩

theorem eq_of_count {α : Type} {p : α → Bool} {l : List α} (h : l.countP p ≤ 1) {a b : α} (ha : a ∈ l) (hb : b ∈ l)
    (pa : p a = true) (pb : p b = true) : a = b := by
  rw [List.countP_eq_length_filter] at h
  have ma := List.mem_filter.mpr ⟨ha, pa⟩
  have mb := List.mem_filter.mpr ⟨hb, pb⟩
  generalize l.filter p = m at h ma mb
  match m, h with
  | [x], _ => rw [List.mem_singleton.mp ma, List.mem_singleton.mp mb]

/-- The edges of polygons through a point on at most one of the contours. -/
theorem edges_through {l : List Polygon} (hv : ∀ p ∈ l, ValidPolygon p) {q : Point} (hq : contoursThrough l q ≤ 1) :
    (∀ t ∈ edgesOf l, q ∉ segPts t) ∨
    (∃ j ∈ edgesOf l, q ∈ openSeg j.start j.end ∧ ∀ t ∈ edgesOf l, q ∈ segPts t → t = j) ∨
    ∃ u ∈ edgesOf l, ∃ v ∈ edgesOf l, u ≠ v ∧ u.end = q ∧ v.start = q ∧ ∀ t ∈ edgesOf l, q ∈ segPts t → t = u ∨ t = v := by
  by_cases h0 : ∀ t ∈ edgesOf l, q ∉ segPts t
  · exact Or.inl h0
  right
  push Not at h0
  obtain ⟨t0, ht0, hq0⟩ := h0
  rw [edges_sides] at ht0 ⊢
  obtain ⟨d, hd, k0⟩ := List.mem_flatMap.mp ht0
  have on : ∀ d ∈ sides l, ∀ t ∈ toOrientedSegments d.1.vertices d.2, q ∈ segPts t →
      locatePointInRegion d.1 q = .boundary := by
    intro d hd t ht hqt
    obtain ⟨o, p, hp, hc⟩ := sides_oriented hd
    obtain ⟨ws, e, _, _, _, h4⟩ := oriented_edges ((hv p hp).1 _ hc) o
    rw [e] at ht
    obtain ⟨t', m, r⟩ := h4.mem ht
    rw [C22_region_boundary]
    exact ⟨t', m, by rw [← (dir_open r).2.1]; exact hqt⟩
  have hcnt : (sides l).countP (fun d => decide (locatePointInRegion d.1 q = .boundary)) ≤ 1 := by
    have := hq
    unfold contoursThrough at this
    rw [contours_sides, List.countP_map] at this
    exact this
  have one : ∀ t ∈ (sides l).flatMap fun d => toOrientedSegments d.1.vertices d.2, q ∈ segPts t →
      t ∈ toOrientedSegments d.1.vertices d.2 := by
    intro t ht hqt
    obtain ⟨d', hd', k⟩ := List.mem_flatMap.mp ht
    have : d' = d := eq_of_count hcnt hd' hd (decide_eq_true (on d' hd' t k hqt)) (decide_eq_true (on d hd t0 k0 hq0))
    rw [this] at k; exact k
  have up : ∀ t ∈ toOrientedSegments d.1.vertices d.2, t ∈ (sides l).flatMap fun d => toOrientedSegments d.1.vertices d.2 :=
    fun t ht => List.mem_flatMap.mpr ⟨d, hd, ht⟩
  obtain ⟨o, p, hp, hc⟩ := sides_oriented hd
  obtain ⟨ws, e, ⟨_, hn, hf⟩, _, _, _⟩ := oriented_edges ((hv p hp).1 _ hc) o
  rw [e] at k0 one up
  have hf : FullyNoded (toContourSegments ws) := hf
  have hn : ws.Nodup := hn
  by_cases hop : q ∈ openSeg t0.start t0.end
  · left
    refine ⟨t0, up t0 k0, hop, fun t ht hqt => ?_⟩
    by_contra hne
    obtain ⟨k1, k2, k3⟩ := (mem_openSeg_iff (hf.1 t0 k0)).mp hop
    rcases ((noded_of_mem hf k0 (one t ht hqt) (Ne.symm hne)).2 q k1 hqt).1 with k | k
    · exact k2 k
    · exact k3 k
  · right
    rw [mem_openSeg_iff (hf.1 t0 k0)] at hop
    have hqe : q = t0.start ∨ q = t0.end := by
      by_contra k
      rw [not_or] at k
      exact hop ⟨hq0, k.1, k.2⟩
    have hqm : q ∈ ws := by
      rcases hqe with k | k <;> rw [k]
      · exact (contour_mem k0).1
      · exact (contour_mem k0).2
    obtain ⟨v, hv1, hv2⟩ : ∃ v ∈ toContourSegments ws, v.start = q := by
      have : q ∈ (toContourSegments ws).map Segment.start := by rw [contour_starts]; exact hqm
      exact List.mem_map.mp this
    obtain ⟨u, hu1, hu2⟩ : ∃ u ∈ toContourSegments ws, u.end = q := by
      have : q ∈ (toContourSegments ws).map Segment.end := by
        cases ws with
        | nil => cases hqm
        | cons w ws =>
          rw [contour_ends, List.mem_append, List.mem_singleton]
          exact (List.mem_cons.mp hqm).symm
      exact List.mem_map.mp this
    refine ⟨u, up u hu1, v, up v hv1, ?_, hu2, hv2, fun t ht hqt => ?_⟩
    · rintro rfl
      exact hf.1 u hu1 (hv2.trans hu2.symm)
    · have mt := one t ht hqt
      by_cases h1 : t = u
      · exact Or.inl h1
      · right
        have : q ∈ segPts u := by rw [← hu2]; exact end_mem_seg _ _
        rcases ((noded_of_mem hf mt hu1 h1).2 q hqt this).1 with k | k
        · exact contour_inj_start hn mt hv1 (k.symm.trans hv2.symm)
        · exact absurd (contour_inj_end hn mt hu1 (k.symm.trans hu2.symm)) h1

/-- An edge inside of which the point is has it alone among the edges of a noded operand. -/
theorem edge_alone {l : List Polygon} (hv : ∀ p ∈ l, ValidPolygon p) (hE : FullyNoded (outlineEdges l)) {q : Point}
    {s t : Segment} (hs : s ∈ edgesOf l) (ht : t ∈ edgesOf l) (hd : s.start ≠ s.end) (hap : Apart s t)
    (q1 : q ∈ openSeg s.start s.end) : q ∉ segPts t := by
  intro q2
  obtain ⟨s', a1, a2⟩ := edge_of hv hs
  obtain ⟨t', b1, b2⟩ := edge_of hv ht
  by_cases e : s' = t'
  · subst e
    unfold Apart at hap
    rw [(dir_open b2).2.1, ← (dir_open a2).2.1, Set.inter_self] at hap
    exact not_atMostOne_seg.mpr hd hap
  · rw [(dir_open a2).1] at q1
    rw [(dir_open b2).2.1] at q2
    obtain ⟨k1, k2, k3⟩ := (mem_openSeg_iff (hE.1 s' a1)).mp q1
    rcases ((noded_of_mem hE a1 b1 e).2 q k1 q2).1 with k | k
    · exact k2 k
    · exact k3 k

theorem sparse_of {l1 l2 : List Polygon} (v1 : ValidPolygons l1) (v2 : ValidPolygons l2) (h : CleanOperands l1 l2)
    {first second : List Segment} (s1 : first.Sublist (edgesOf l1)) (s2 : second.Sublist (edgesOf l2)) {ε : ℚ}
    (k1 : ∀ q ∈ segsPts first, ∀ t ∈ edgesOf l2, q ∈ segPts t → t ∈ second)
    (k2 : ∀ q ∈ segsPts second, ∀ t ∈ edgesOf l1, q ∈ segPts t → t ∈ first)
    (g : (ctxOf first second ε).Good) : Sparse (ctxOf first second ε) := by
  have n1 : NoOverlap first := ⟨fun s k => (edges_noOverlap v1).1 s (s1.subset k), (edges_noOverlap v1).2.sublist s1⟩
  have n2 : NoOverlap second := ⟨fun s k => (edges_noOverlap v2).1 s (s2.subset k), (edges_noOverlap v2).2.sublist s2⟩
  have nd : ∀ s ∈ first ++ second, s.start ≠ s.end := fun s hs => (List.mem_append.mp hs).elim (n1.1 s) (n2.1 s)
  have st : ∀ i < (first ++ second).length, ∀ q, Strict (ctxOf first second ε) i q ↔
      q ∈ openSeg (segAt (first ++ second) i).start (segAt (first ++ second) i).end := by
    intro i hi q
    have nD := nd _ (segAt_mem hi)
    rw [mem_openSeg_iff nD]
    have hm : q ∈ seg (segAt (first ++ second) i).start (segAt (first ++ second) i).end ↔ _ := mem_segAt_iff g hi q
    rw [hm]
    have hA : ∀ w, (ctxOf first second ε).On i w → (ctxOf first second ε).On i q →
        (ctxOf first second ε).X w = (ctxOf first second ε).X q → q = w := by
      intro w h1 h2 h3
      unfold Ctx.On at h1 h2
      unfold Ctx.X at h1 h2 h3
      rw [Point.eq_iff]
      rw [h3] at h1
      have : q.y = w.y := h2.trans h1.symm
      rw [this] at h3
      exact ⟨by linarith, this⟩
    have oA := g.onA i hi
    have oB := g.onB i hi
    have ends : (q ≠ (segAt (first ++ second) i).start ∧ q ≠ (segAt (first ++ second) i).end) ↔
        (q ≠ (ctxOf first second ε).A i ∧ q ≠ (ctxOf first second ε).B i) := by
      show _ ↔ (q ≠ lo (segAt (first ++ second) i) ∧ q ≠ Sweep.hi (segAt (first ++ second) i))
      rcases lo_hi_or (segAt (first ++ second) i) with ⟨k1, k2⟩ | ⟨k1, k2⟩ <;> rw [k1, k2]
      exact and_comm
    rw [ends]
    constructor
    · rintro ⟨o, a, b⟩
      refine ⟨⟨o, a.le, b.le⟩, ?_, ?_⟩
      · rintro rfl; exact lt_irrefl _ a
      · rintro rfl; exact lt_irrefl _ b
    · rintro ⟨⟨o, a, b⟩, c1, c2⟩
      exact ⟨o, lt_of_le_of_ne a fun z => c1 (hA _ oA o z), lt_of_le_of_ne b fun z => c2 (hA _ oB o z.symm)⟩
  have th : ∀ k < (first ++ second).length, ∀ q, Thru (ctxOf first second ε) k q ↔ q ∈ segPts (segAt (first ++ second) k) :=
    fun k hk q => (mem_segAt_iff g hk q).symm
  -- the edges of the other operand
  have core : ∀ (l : List Polygon) (kept : List Segment) (side : ℕ → Prop), (∀ p ∈ l, ValidPolygon p) →
      (∀ t ∈ kept, t ∈ edgesOf l) → (∀ t ∈ kept, t.start ≠ t.end) →
      (∀ k k', side k → side k' → ((k < first.length) ↔ (k' < first.length))) →
      (∀ t ∈ kept, ∃ k < (first ++ second).length, side k ∧ segAt (first ++ second) k = t) →
      (∀ k < (first ++ second).length, side k → segAt (first ++ second) k ∈ kept) →
      (∀ k < (first ++ second).length, ∀ k' < (first ++ second).length, side k → side k' → k ≠ k' →
        Apart (segAt (first ++ second) k) (segAt (first ++ second) k')) →
      ∀ i < (first ++ second).length, ∀ q, Strict (ctxOf first second ε) i q → contoursThrough l q ≤ 1 →
      (∀ t ∈ edgesOf l, q ∈ segPts t → t ∈ kept) →
      (∀ k < (first ++ second).length, q ∈ segPts (segAt (first ++ second) k) → k = i ∨ side k) →
      (∃ j < (first ++ second).length, Strict (ctxOf first second ε) j q ∧
        ∀ k < (first ++ second).length, Thru (ctxOf first second ε) k q → k = i ∨ k = j) ∨
      ∃ u < (first ++ second).length, ∃ v < (first ++ second).length, u ≠ v ∧
        ((ctxOf first second ε).A u = (ctxOf first second ε).A v → ¬ (ctxOf first second ε).Coll u v) ∧
        (u < first.length ↔ v < first.length) ∧
        (q = (ctxOf first second ε).A u ∨ q = (ctxOf first second ε).B u) ∧
        (q = (ctxOf first second ε).A v ∨ q = (ctxOf first second ε).B v) ∧
        ∀ k < (first ++ second).length, Thru (ctxOf first second ε) k q → k = i ∨ k = u ∨ k = v := by
    intro l kept side hv sub hnd same idx back ap i hi q hS hq keep own
    have uniq : ∀ k < (first ++ second).length, ∀ k' < (first ++ second).length, side k → side k' →
        segAt (first ++ second) k = segAt (first ++ second) k' → k = k' := by
      intro k hk k' hk' a b e
      by_contra hne
      have := ap k hk k' hk' a b hne
      unfold Apart at this
      rw [← e, Set.inter_self] at this
      exact not_atMostOne_seg.mpr (hnd _ (back k hk a)) this
    rcases edges_through hv hq with k | ⟨j, hj, hjo, k⟩ | ⟨u, hu, v, hv', huv, hu2, hv2, k⟩
    · refine Or.inl ⟨i, hi, hS, fun k' hk' ht => ?_⟩
      rw [th k' hk'] at ht
      rcases own k' hk' ht with z | z
      · exact Or.inl z
      · exact absurd ht (k _ (sub _ (back k' hk' z)))
    · left
      have mj := keep j hj (openSeg_sub hjo)
      obtain ⟨n, hn, sn, en⟩ := idx j mj
      refine ⟨n, hn, (st n hn q).mpr (by rw [en]; exact hjo), fun k' hk' ht => ?_⟩
      rw [th k' hk'] at ht
      rcases own k' hk' ht with z | z
      · exact Or.inl z
      · exact Or.inr (uniq k' hk' n hn z sn ((k _ (sub _ (back k' hk' z)) ht).trans en.symm))
    · right
      have qu : q ∈ segPts u := by rw [← hu2]; exact end_mem_seg _ _
      have qv : q ∈ segPts v := by rw [← hv2]; exact start_mem_seg _ _
      obtain ⟨n, hn, sn, en⟩ := idx u (keep u hu qu)
      obtain ⟨m, hm, sm, em⟩ := idx v (keep v hv' qv)
      have hnm : n ≠ m := by
        rintro rfl
        exact huv (en.symm.trans em)
      have atE : ∀ n w, segAt (first ++ second) n = w → (q = w.start ∨ q = w.end) →
          (q = (ctxOf first second ε).A n ∨ q = (ctxOf first second ε).B n) := by
        intro n w e hw
        show q = lo (segAt (first ++ second) n) ∨ q = Sweep.hi (segAt (first ++ second) n)
        rw [e]
        rcases lo_hi_or w with ⟨k1, k2⟩ | ⟨k1, k2⟩ <;> rw [k1, k2]
        · exact hw
        · exact hw.symm
      refine ⟨n, hn, m, hm, hnm, ?_, same n m sn sm, atE n u en (Or.inr hu2.symm), atE m v em (Or.inl hv2.symm), ?_⟩
      · intro hA hc
        have hap := ap n hn m hm sn sm hnm
        have both : ∀ n < (first ++ second).length, ∀ m < (first ++ second).length,
            (ctxOf first second ε).A n = (ctxOf first second ε).A m → (ctxOf first second ε).Coll n m →
            (ctxOf first second ε).X ((ctxOf first second ε).B n) ≤ (ctxOf first second ε).X ((ctxOf first second ε).B m) →
            Apart (segAt (first ++ second) n) (segAt (first ++ second) m) → False := by
          intro n hn m hm hA hc hle hap
          have a1 := (mem_segAt_iff g hn ((ctxOf first second ε).A n)).mpr ⟨g.onA n hn, le_rfl, (g.lt n hn).le⟩
          have a2 := (mem_segAt_iff g hn ((ctxOf first second ε).B n)).mpr ⟨g.onB n hn, (g.lt n hn).le, le_rfl⟩
          have b1 := (mem_segAt_iff g hm ((ctxOf first second ε).A n)).mpr (by
            rw [hA]; exact ⟨g.onA m hm, le_rfl, (g.lt m hm).le⟩)
          have b2 := (mem_segAt_iff g hm ((ctxOf first second ε).B n)).mpr
            ⟨(g.onB n hn).coll hc, by rw [← hA]; exact (g.lt n hn).le, hle⟩
          have := hap _ ⟨a1, b1⟩ _ ⟨a2, b2⟩
          have lt := g.lt n hn
          rw [this] at lt
          exact lt_irrefl _ lt
        rcases le_total ((ctxOf first second ε).X ((ctxOf first second ε).B n))
          ((ctxOf first second ε).X ((ctxOf first second ε).B m)) with z | z
        · exact both n hn m hm hA hc z hap
        · exact both m hm n hn hA.symm hc.symm z (ap m hm n hn sm sn hnm.symm)
      · intro k' hk' ht
        rw [th k' hk'] at ht
        rcases own k' hk' ht with z | z
        · exact Or.inl z
        · rcases k _ (sub _ (back k' hk' z)) ht with w | w
          · exact Or.inr (Or.inl (uniq k' hk' n hn z sn (w.trans en.symm)))
          · exact Or.inr (Or.inr (uniq k' hk' m hm z sm (w.trans em.symm)))
  have len : (first ++ second).length = first.length + second.length := List.length_append
  intro i hi q hS
  have hi : i < (first ++ second).length := hi
  have ho := (st i hi q).mp hS
  by_cases hf : i < first.length
  · have es : segAt (first ++ second) i = segAt first i := segAt_append_left hf
    have mf := segAt_mem hf
    rw [es] at ho
    refine core l2 second (fun k => ¬ k < first.length) v2.1 (fun t ht => s2.subset ht) n2.1 (fun k k' a b => iff_of_false a b)
      ?_ ?_ ?_ i hi q hS ?_ ?_ ?_
    · intro t ht
      obtain ⟨n, hn, e⟩ := mem_segAt ht
      refine ⟨first.length + n, by omega, by omega, ?_⟩
      rw [segAt_append_right (by omega)]
      simpa using e
    · intro k hk a
      rw [segAt_append_right (not_lt.mp a)]
      exact segAt_mem (by omega)
    · intro k hk k' hk' a b hne
      rw [segAt_append_right (not_lt.mp a), segAt_append_right (not_lt.mp b)]
      exact apart_segAt n2.2 (by omega) (by omega) (by omega)
    · obtain ⟨s', a1, a2⟩ := edge_of v1.1 (s1.subset mf)
      rw [(dir_open a2).1] at ho
      exact h.2.2.1 s' a1 q ho
    · exact k1 q ⟨_, mf, openSeg_sub ho⟩
    · intro k hk hq
      by_cases hkf : k < first.length
      · left
        by_contra hne
        rw [segAt_append_left hkf] at hq
        exact edge_alone v1.1 h.1 (s1.subset mf) (s1.subset (segAt_mem hkf)) (n1.1 _ mf)
          (apart_segAt n1.2 hf hkf (Ne.symm hne)) ho hq
      · exact Or.inr hkf
  · have es : segAt (first ++ second) i = segAt second (i - first.length) := segAt_append_right (not_lt.mp hf)
    have hi' : i - first.length < second.length := by omega
    have mf := segAt_mem hi'
    rw [es] at ho
    refine core l1 first (fun k => k < first.length) v1.1 (fun t ht => s1.subset ht) n1.1 (fun k k' a b => iff_of_true a b)
      ?_ ?_ ?_ i hi q hS ?_ ?_ ?_
    · intro t ht
      obtain ⟨n, hn, e⟩ := mem_segAt ht
      exact ⟨n, by omega, hn, by rw [segAt_append_left hn]; exact e⟩
    · intro k hk a
      rw [segAt_append_left a]
      exact segAt_mem a
    · intro k hk k' hk' a b hne
      rw [segAt_append_left a, segAt_append_left b]
      exact apart_segAt n1.2 a b hne
    · obtain ⟨s', a1, a2⟩ := edge_of v2.1 (s2.subset mf)
      rw [(dir_open a2).1] at ho
      exact h.2.2.2 s' a1 q ho
    · exact k2 q ⟨_, mf, openSeg_sub ho⟩
    · intro k hk hq
      by_cases hkf : k < first.length
      · exact Or.inr hkf
      · left
        by_contra hne
        rw [segAt_append_right (not_lt.mp hkf)] at hq
        exact edge_alone v2.1 h.2.1 (s2.subset mf) (s2.subset (segAt_mem (by omega))) (n2.1 _ mf)
          (apart_segAt n2.2 hi' (by omega) (by omega)) ho hq

/-- Fewer polygons. -/
theorem fullyNoded_sub {l l' : List Segment} (h : FullyNoded l') (hs : l.Sublist l') : FullyNoded l :=
  ⟨fun s k => h.1 s (hs.subset k), h.2.sublist hs⟩

theorem clean_sub {l1 l2 C1 C2 U1 U2 : List Polygon} (p1 : (C1 ++ U1).Perm l1) (p2 : (C2 ++ U2).Perm l2)
    (h : CleanOperands l1 l2) : CleanOperands C1 C2 := by
  have q : ∀ {C U l : List Polygon}, (C ++ U).Perm l → (outlineEdges C ++ outlineEdges U).Perm (outlineEdges l) := by
    intro C U l hp
    have := (hp.flatMap_right polygonContours).flatMap_right Contour.segments
    rw [List.flatMap_append, List.flatMap_append] at this
    exact this
  have r1 := q p1
  have r2 := q p2
  have f : ∀ {A B l : List Segment}, (A ++ B).Perm l → FullyNoded l → FullyNoded A := by
    intro A B l hp hf
    exact fullyNoded_sub (fullyNoded_perm hp.symm hf) (List.sublist_append_left _ _)
  have m1 : ∀ s ∈ outlineEdges C1, s ∈ outlineEdges l1 := fun s hs => r1.mem_iff.mp (List.mem_append_left _ hs)
  have m2 : ∀ s ∈ outlineEdges C2, s ∈ outlineEdges l2 := fun s hs => r2.mem_iff.mp (List.mem_append_left _ hs)
  have n : ∀ {C U l : List Polygon}, (C ++ U).Perm l → ∀ q, contoursThrough C q ≤ contoursThrough l q := by
    intro C U l hp q
    have := (hp.flatMap_right polygonContours).countP_eq fun c => decide (locatePointInRegion c q = .boundary)
    rw [List.flatMap_append, List.countP_append] at this
    show List.countP _ (C.flatMap polygonContours) ≤ List.countP _ (l.flatMap polygonContours)
    omega
  exact ⟨f r1 h.1, f r2 h.2.1, fun s hs q hq => (n p2 q).trans (h.2.2.1 s (m1 s hs) q hq),
    fun s hs q hq => (n p1 q).trans (h.2.2.2 s (m2 s hs) q hq)⟩

theorem clean_symm {l1 l2 : List Polygon} (h : CleanOperands l1 l2) : CleanOperands l2 l1 :=
  ⟨h.2.1, h.1, h.2.2.2, h.2.2.1⟩

theorem countP_le_one {α : Type} {R : α → α → Prop} {p : α → Bool} {l : List α} (h : l.Pairwise R)
    (hR : ∀ a b, R a b → p a = true → p b = true → False) : l.countP p ≤ 1 := by
  rw [List.countP_eq_length_filter]
  have hf := h.filter p
  have hp : ∀ a ∈ l.filter p, p a = true := fun a ha => (List.mem_filter.mp ha).2
  generalize l.filter p = m at hf hp
  match m, hf, hp with
  | [], _, _ => exact Nat.zero_le _
  | [_], _, _ => exact le_rfl
  | a :: b :: _, hf, hp =>
    exact (hR a b (List.rel_of_pairwise_cons hf (by simp)) (hp a (by simp)) (hp b (by simp))).elim

/-- Vertices off the edges. -/
theorem clean_of_verticesOff {l1 l2 : List Polygon} (h : VerticesOffEdges l1 l2) : CleanOperands l1 l2 := by
  have key : ∀ {l m : List Polygon}, FullyNoded (outlineEdges m) → EndsOff (outlineEdges l) (outlineEdges m) →
      ∀ s ∈ outlineEdges l, ∀ q ∈ openSeg s.start s.end, contoursThrough m q ≤ 1 := by
    intro l m hf he s hs q hq
    have hp := (List.pairwise_flatMap.mp hf.2).2
    refine countP_le_one (List.Pairwise.and_mem.mp hp) ?_
    rintro c c' ⟨hc, hc', hR⟩ h1 h2
    obtain ⟨t, ht, qt⟩ := (C22_region_boundary c q).mp (of_decide_eq_true h1)
    obtain ⟨t', ht', qt'⟩ := (C22_region_boundary c' q).mp (of_decide_eq_true h2)
    have k := he s hs t (List.mem_flatMap.mpr ⟨c, hc, ht⟩)
    rcases ((hR t ht t' ht').2 q qt qt').1 with z | z
    · rw [z] at hq; exact k.1 hq
    · rw [z] at hq; exact k.2 hq
  exact ⟨h.1, h.2.1, key h.2.1 h.2.2.1, key h.1 h.2.2.2⟩

/-- Polygons without holes. -/
theorem clean_of_holeless {p r : Polygon} (h1 : ValidPolygon p) (h2 : ValidPolygon r) (e1 : p.holes = [])
    (e2 : r.holes = []) : CleanOperands [p] [r] := by
  have key : ∀ {p : Polygon}, ValidPolygon p → p.holes = [] → FullyNoded (outlineEdges [p]) ∧ ∀ q, contoursThrough [p] q ≤ 1 := by
    intro p h e
    have : contoursOf [p] = [p.border] := by simp [contoursOf, polygonContours, e]
    unfold outlineEdges contoursThrough
    rw [this]
    refine ⟨?_, fun q => List.countP_le_length⟩
    rw [List.flatMap_singleton]
    exact (h.1 p.border (by simp [polygonContours])).2.2
  exact ⟨(key h1 e1).1, (key h2 e2).1, fun _ _ q _ => (key h2 e2).2 q, fun _ _ q _ => (key h1 e1).2 q⟩

end Rene.Sweep
