import Verif.Lemmas.Assemble.Outcome
import Verif.Lemmas.Assemble.Region
import Verif.Lemmas.Assemble.Clean
import Verif.Lemmas.MixedOps

/-! A run of a shaped operation. -/

namespace Rene.Sweep
open Rene Spec Face Assemble

/-- No edge left out which starts before the end of the range. -/
def NoLeftO (kept full : List Segment) (stop : Point → Bool) : Prop :=
  ∀ s ∈ full, s ∈ kept ∨ ∀ v, stop v = false → v < lo s

def GlueO (op : ShpOp) (first second full1 full2 : List Segment) (stop : Point → Bool) : Prop :=
  match op with
  | .difference => NoLeftO first full1 stop
  | .intersection => NoLeftO first full1 stop ∨ NoLeftO second full2 stop
  | _ => NoLeftO first full1 stop ∧ NoLeftO second full2 stop

/-- An operand ends in the range. -/
structure EndsO (lin kept full : List Segment) (stop : Point → Bool) : Prop where
  hi : ∀ s ∈ kept, stop (hi s) = false
  all : ∀ s ∈ full, s ∈ kept ∨ ∀ t ∈ lin, Sweep.hi s < lo t
  reach : ∀ s ∈ full, ∃ t ∈ kept, Sweep.hi s ≤ Sweep.hi t

def CloseO (op : ShpOp) (first second full1 full2 : List Segment) (stop : Point → Bool) : Prop :=
  match op with
  | .difference => EndsO second first full1 stop
  | .intersection => EndsO second first full1 stop ∨ EndsO first second full2 stop
  | _ => EndsO second first full1 stop ∧ EndsO first second full2 stop

def DropO (lin kept full : List Segment) (stop : Point → Bool) : Prop :=
  ∀ s ∈ full, s ∈ kept ∨ (∀ t ∈ lin, hi s < lo t) ∨ ∀ v, stop v = false → v < lo s

/-- The edges given to the sweep. -/
structure Plan (op : ShpOp) (l1 l2 : List Polygon) (first second : List Segment) (stop : Point → Bool) : Prop where
  v1 : ValidPolygons l1
  v2 : ValidPolygons l2
  sub1 : first.Sublist (edgesOf l1)
  sub2 : second.Sublist (edgesOf l2)
  ne : first ++ second ≠ []
  mono : Mono stop
  begins : ∀ s ∈ first ++ second, stop (lo s) = false
  drop1 : DropO second first (edgesOf l1) stop
  drop2 : DropO first second (edgesOf l2) stop
  glue : GlueO op first second (edgesOf l1) (edgesOf l2) stop
  close : CloseO op first second (edgesOf l1) (edgesOf l2) stop
  both : ∀ q ∈ segsPts (edgesOf l1), q ∈ segsPts (edgesOf l2) → stop q = false

theorem lo_le_hi (s : Segment) : lo s ≤ hi s := by
  by_cases h : s.start = s.end
  · rcases lo_hi_or s with ⟨k1, k2⟩ | ⟨k1, k2⟩ <;> rw [k1, k2, h]
  · exact (lo_lt_hi h).le

theorem lo_hi_bounds {s : Segment} {q : Point} (h : q ∈ segPts s) : lo s ≤ q ∧ q ≤ hi s := by
  have h' : q ∈ seg s.start s.end := h
  rw [mem_seg_iff] at h'
  have hd := h'.2
  rcases lo_hi_or s with ⟨k1, k2⟩ | ⟨k1, k2⟩ <;> rw [k1, k2] <;> rcases hd with ⟨a, b⟩ | ⟨a, b⟩
  · exact ⟨a, b⟩
  · have : s.start ≤ s.end := by rw [← k1, ← k2]; exact lo_le_hi s
    exact ⟨this.trans a, b.trans this⟩
  · have : s.end ≤ s.start := by rw [← k1, ← k2]; exact lo_le_hi s
    exact ⟨this.trans a, b.trans this⟩
  · exact ⟨a, b⟩

theorem DropO.keep {lin kept full : List Segment} {stop : Point → Bool} (h : DropO lin kept full stop) {q : Point}
    (hq : q ∈ segsPts lin) {t : Segment} (ht : t ∈ full) (hqt : q ∈ segPts t) (hs : stop q = false) : t ∈ kept := by
  obtain ⟨u, hu, hqu⟩ := hq
  rcases h t ht with k | k | k
  · exact k
  · exact absurd ((lo_hi_bounds hqu).1.trans (lo_hi_bounds hqt).2) (not_le.mpr (k u hu))
  · exact absurd (lo_hi_bounds hqt).1 (not_le.mpr (k q hs))

theorem Plan.sparse {op : ShpOp} {l1 l2 : List Polygon} {first second : List Segment} {stop : Point → Bool}
    (h : Plan op l1 l2 first second stop) (hc : CleanOperands l1 l2) {ε : ℚ} (g : (ctxOf first second ε).Good) :
    Sparse (ctxOf first second ε) := by
  refine sparse_of h.v1 h.v2 hc h.sub1 h.sub2 (fun q hq t ht hqt => ?_) (fun q hq t ht hqt => ?_) g
  · obtain ⟨u, hu, hqu⟩ := hq
    exact h.drop2.keep ⟨u, hu, hqu⟩ ht hqt (h.both q ⟨u, h.sub1.subset hu, hqu⟩ ⟨t, ht, hqt⟩)
  · obtain ⟨u, hu, hqu⟩ := hq
    exact h.drop1.keep ⟨u, hu, hqu⟩ ht hqt (h.both q ⟨t, ht, hqt⟩ ⟨u, h.sub2.subset hu, hqu⟩)

theorem noOverlap_sublist {l l' : List Segment} (h : NoOverlap l') (hs : l.Sublist l') : NoOverlap l :=
  ⟨fun s k => h.1 s (hs.subset k), h.2.sublist hs⟩

/-- The sweep of the plan. -/
def Plan.swept (op : ShpOp) (first second : List Segment) (stop : Point → Bool) : Shp × List ℕ :=
  (Shp.init first second).loop op stop (Lin.fuel (first.length + second.length)) []

open Classical in
theorem Plan.fin {op : ShpOp} {l1 l2 : List Polygon} {first second : List Segment} {stop : Point → Bool}
    (h : Plan op l1 l2 first second stop) : ∃ ε M,
      Gen ε (· ∈ points (first ++ second)) ∧
      (∀ p ∈ l1 ++ l2, ∀ c ∈ polygonContours p, Gen ε (· ∈ c.vertices)) ∧
      Fin ε op first second (edgesOf l1) (edgesOf l2) (insidePts l1) (insidePts l2) stop
        (Plan.swept op first second stop).1 M (Plan.swept op first second stop).2 ∧
      (Plan.swept op first second stop).1.lin.ok = true ∧
      Glue ε op first second (edgesOf l1) (edgesOf l2) stop ∧
      Close ε op first second (edgesOf l1) (edgesOf l2) stop := by
  have hE1 := edges_noOverlap h.v1
  have hE2 := edges_noOverlap h.v2
  have n1 := noOverlap_sublist hE1 h.sub1
  have n2 := noOverlap_sublist hE2 h.sub2
  obtain ⟨V, hV⟩ : ∃ V : Finset Point, V = points (first ++ second) ∪
    (((l1 ++ l2).flatMap fun p => (polygonContours p).flatMap Contour.vertices).toFinset ∪
    (((edgesOf l1 ++ edgesOf l2).map lo).toFinset ∪ ((edgesOf l1 ++ edgesOf l2).map hi).toFinset)) := ⟨_, rfl⟩
  obtain ⟨ε, hg⟩ := exists_gen V
  have gP : ∀ v ∈ points (first ++ second), v ∈ V := fun v hv => by
    rw [hV]; exact Finset.mem_union_left _ hv
  have gl : ∀ s ∈ edgesOf l1 ++ edgesOf l2, lo s ∈ V := by
    intro s hs
    rw [hV]
    simp only [Finset.mem_union, List.mem_toFinset]
    exact Or.inr (Or.inr (Or.inl (List.mem_map_of_mem hs)))
  have gh : ∀ s ∈ edgesOf l1 ++ edgesOf l2, hi s ∈ V := by
    intro s hs
    rw [hV]
    simp only [Finset.mem_union, List.mem_toFinset]
    exact Or.inr (Or.inr (Or.inr (List.mem_map_of_mem hs)))
  have gv : ∀ p ∈ l1 ++ l2, ∀ c ∈ polygonContours p, ∀ v ∈ c.vertices, v ∈ V := by
    intro p hp c hc v hv
    rw [hV]
    simp only [Finset.mem_union, List.mem_toFinset]
    exact Or.inr (Or.inl (List.mem_flatMap.mpr ⟨p, hp, List.mem_flatMap.mpr ⟨c, hc, hv⟩⟩))
  clear hV
  have i1 : ∀ s ∈ edgesOf l1, s ∈ edgesOf l1 ++ edgesOf l2 := fun s hs => List.mem_append_left _ hs
  have i2 : ∀ s ∈ edgesOf l2, s ∈ edgesOf l1 ++ edgesOf l2 := fun s hs => List.mem_append_right _ hs
  have j1 : ∀ s ∈ first, s ∈ edgesOf l1 ++ edgesOf l2 := fun s hs => i1 s (h.sub1.subset hs)
  have j2 : ∀ s ∈ second, s ∈ edgesOf l1 ++ edgesOf l2 := fun s hs => i2 s (h.sub2.subset hs)
  have dr : ∀ {lin kept full : List Segment}, (∀ s ∈ lin, s ∈ edgesOf l1 ++ edgesOf l2) →
      (∀ s ∈ full, s ∈ edgesOf l1 ++ edgesOf l2) → DropO lin kept full stop →
      ∀ s ∈ full, s ∈ kept ∨ (∀ t ∈ lin, Xe ε (hi s) ≤ Xe ε (lo t)) ∨
        (∀ v ∈ points (first ++ second), stop v = false → Xe ε v < Xe ε (lo s)) := by
    intro lin kept full a b d s hs
    rcases d s hs with k | k | k
    · exact Or.inl k
    · exact Or.inr (Or.inl fun t ht => (hg _ (gh s (b s hs)) _ (gl t (a t ht)) (k t ht)).le)
    · exact Or.inr (Or.inr fun v hv hst => hg _ (gP v hv) _ (gl s (b s hs)) (k v hst))
  have good : (ctxOf first second ε).Good := by
    refine good_of_eps n1 n2 fun u hu huv => ?_
    rw [Finset.mem_product] at hu
    exact hg _ (gP _ hu.1) _ (gP _ hu.2) huv
  have E1 : Edges ε (edgesOf l1) (insidePts l1) := polygons_edges h.v1 fun p hp c hc u hu v hv' huv =>
    hg _ (gv p (List.mem_append_left _ hp) c hc u hu) _ (gv p (List.mem_append_left _ hp) c hc v hv') huv
  have E2 : Edges ε (edgesOf l2) (insidePts l2) := polygons_edges h.v2 fun p hp c hc u hu v hv' huv =>
    hg _ (gv p (List.mem_append_right _ hp) c hc u hu) _ (gv p (List.mem_append_right _ hp) c hc v hv') huv
  have s1 : Setting ε first second first second (edgesOf l2) (insidePts l2) true stop :=
    ⟨Or.inl ⟨rfl, rfl, rfl⟩, good, E2, hE2, n1, fun s hs => h.sub2.subset hs, h.mono,
      fun s hs => h.begins s (List.mem_append_left _ hs), dr j1 i2 h.drop2⟩
  have s2 : Setting ε first second second first (edgesOf l1) (insidePts l1) false stop :=
    ⟨Or.inr ⟨rfl, rfl, rfl⟩, good, E1, hE1, n2, fun s hs => h.sub1.subset hs, h.mono,
      fun s hs => h.begins s (List.mem_append_right _ hs), dr j2 i1 h.drop1⟩
  have run := shp_run_final (ε := ε) n1.1 n2.1 h.ne good (op := op) .linearShapedDifference h.mono
  have f1 := s1.final .linearShapedDifference fun _ => true
  have f2 := s2.final .linearShapedDifference fun _ => true
  simp only at run f1 f2
  obtain ⟨r1, r2, r3⟩ := run
  have nl : ∀ {kept full : List Segment}, (∀ s ∈ full, s ∈ edgesOf l1 ++ edgesOf l2) → NoLeftO kept full stop →
      NoLeft ε first second kept full stop := fun b d s hs =>
    (d s hs).imp_right fun k v hv hst => hg _ (gP v hv) _ (gl s (b s hs)) (k v hst)
  have en : ∀ {lin kept full : List Segment}, (∀ s ∈ lin, s ∈ edgesOf l1 ++ edgesOf l2) →
      (∀ s ∈ full, s ∈ edgesOf l1 ++ edgesOf l2) → (∀ s ∈ kept, s ∈ edgesOf l1 ++ edgesOf l2) →
      (∀ s ∈ kept, hi s ∈ points (first ++ second)) → EndsO lin kept full stop →
      Ends ε first second lin kept full stop := by
    intro lin kept full a b c' p d
    refine ⟨d.hi, fun s hs => (d.all s hs).imp_right fun k t ht => (hg _ (gh s (b s hs)) _ (gl t (a t ht)) (k t ht)).le,
      fun s hs => ?_⟩
    obtain ⟨t, ht, k⟩ := d.reach s hs
    refine ⟨hi t, p t ht, d.hi t ht, ?_⟩
    rcases eq_or_lt_of_le k with k | k
    · rw [k]
    · exact (hg _ (gh s (b s hs)) _ (gh t (c' t ht)) k).le
  have p1 : ∀ s ∈ first, hi s ∈ points (first ++ second) := fun s hs => by
    obtain ⟨i, a, _, rfl⟩ := s1.atT hs
    exact good.memB i a
  have p2 : ∀ s ∈ second, hi s ∈ points (first ++ second) := fun s hs => by
    obtain ⟨i, a, _, rfl⟩ := s2.atT hs
    exact good.memB i a
  refine ⟨ε, _, fun u hu v hv k => hg u (gP u hu) v (gP v hv) k,
    fun p hp c hc u hu v hv k => hg u (gv p hp c hc u hu) v (gv p hp c hc v hv) k,
    ⟨⟨s1, s2⟩, ?_, ?_, r2, r1⟩, ?_, ?_, ?_⟩
  · unfold Plan.swept; rw [r3]; exact f1.1
  · unfold Plan.swept; rw [r3]; exact f2.1
  · unfold Plan.swept; rw [r2.lin]; exact f1.2
  · have := h.glue
    cases op with
    | difference => exact nl i1 this
    | intersection => exact this.imp (nl i1) (nl i2)
    | union => exact this.imp (nl i1) (nl i2)
    | symmetricDifference => exact this.imp (nl i1) (nl i2)
  · have := h.close
    cases op with
    | difference => exact en j2 i1 j1 p1 this
    | intersection => exact this.imp (en j2 i1 j1 p1) (en j1 i2 j2 p2)
    | union => exact this.imp (en j2 i1 j1 p1) (en j1 i2 j2 p2)
    | symmetricDifference => exact this.imp (en j2 i1 j1 p1) (en j1 i2 j2 p2)

end Rene.Sweep

namespace Rene.Sweep
open Rene Spec Face Assemble

/-- Two segments which share more than a point share one out of a finite set. -/
theorem exists_common {s t : Segment} (h : ¬ Apart s t) (F : List Point) : ∃ q, q ∉ F ∧ q ∈ segPts s ∧ q ∈ segPts t := by
  unfold Apart AtMostOne at h
  push Not at h
  obtain ⟨a, ⟨a1, a2⟩, b, ⟨b1, b2⟩, hab⟩ := h
  obtain ⟨q, hq, hsub, hF⟩ := exists_dir hab (start_mem_seg a b) F
  have hm : lerp a q (1/2) ∈ openSeg a q := ⟨1/2, by norm_num, by norm_num, rfl⟩
  refine ⟨_, fun k => hF _ k hm, ?_, ?_⟩
  · exact lerp_mem_seg (a := s.start) (b := s.end) a1 b1 (hsub hm)
  · exact lerp_mem_seg (a := t.start) (b := t.end) a2 b2 (hsub hm)

/-- What a run gives. -/
structure Ran (op : ShpOp) (l1 l2 : List Polygon) (ps : List Polygon) : Prop where
  simple : ∀ c ∈ ps.flatMap polygonContours, SimpleContour c
  border : ∀ p ∈ ps, p.border.orientation = .counterclockwise
  holes : ∀ p ∈ ps, ∀ k ∈ p.holes, k.orientation = .clockwise
  noOv : ∀ X, NoOverlap X → (∀ u ∈ X, ∀ t ∈ edgesOf l1, Apart t u) →
    (∀ u ∈ X, (∀ t ∈ edgesOf l2, Apart t u) ∨ (op = .difference ∧ Disjoint (segPts u) (insidePts l1))) →
    NoOverlap ((ps.flatMap polygonContours).flatMap Contour.segments ++ X)
  sub : segsPts ((ps.flatMap polygonContours).flatMap Contour.segments) ⊆ segsPts (edgesOf l1) ∪ segsPts (edgesOf l2)
  odd : ∀ q, q ∉ segsPts (edgesOf l1) → q ∉ segsPts (edgesOf l2) → ∀ a b : Bool, (a = true ↔ q ∈ insidePts l1) →
    (b = true ↔ q ∈ insidePts l2) →
    xorAll (fun c => decide (locatePointInRegion c q = .interior)) (ps.flatMap polygonContours) = opv op a b
  ne : op = .union → l1 ≠ [] → ps ≠ []
  located : CleanOperands l1 l2 → ∀ q, q ∉ segsPts (edgesOf l1) → q ∉ segsPts (edgesOf l2) →
    ((∃ p ∈ ps, p.locate q = .interior) ↔
      xorAll (fun c => decide (locatePointInRegion c q = .interior)) (ps.flatMap polygonContours) = true)
  valid : CleanOperands l1 l2 → ∀ q, q ∉ segsPts (edgesOf l1) → q ∉ segsPts (edgesOf l2) → GenValid ps q

/-- Some edge is directed down. -/
theorem exists_down {vs : List Point} (hs : SimpleContour ⟨vs⟩) : ∃ s ∈ toContourSegments vs, s.end < s.start := by
  obtain ⟨h3, hn, hf⟩ := hs
  have hne : vs.toFinset.Nonempty := by
    rw [List.toFinset_nonempty_iff]
    rintro rfl
    simp at h3
  obtain ⟨m, hm, hmin⟩ := vs.toFinset.exists_min_image id hne
  rw [List.mem_toFinset] at hm
  cases vs with
  | nil => simp at hm
  | cons v l =>
    have hm' : m ∈ (toContourSegments (v :: l)).map Segment.end := by
      rw [contour_ends]
      rcases List.mem_cons.mp hm with rfl | k
      · simp
      · exact List.mem_append_left _ k
    obtain ⟨s, hs, rfl⟩ := List.mem_map.mp hm'
    refine ⟨s, hs, lt_of_le_of_ne (hmin s.start ?_) (hf.1 s hs).symm⟩
    rw [List.mem_toFinset]
    exact (contour_mem hs).1

/-- A valid shape has points inside. -/
theorem exists_odd {l : List Polygon} (hv : ValidPolygons l) (hl : l ≠ []) {ε : ℚ} {R : Set Point}
    (hE : Edges ε (edgesOf l) R) : ∃ z, downParity ε z (edgesOf l) = true := by
  obtain ⟨p, hp⟩ := List.exists_mem_of_ne_nil l hl
  have hb : SimpleContour p.border := (hv.1 p hp).1 p.border (by simp [polygonContours])
  obtain ⟨ws, e1, e2, e3, e4, e5⟩ := oriented_edges hb (t := .counterclockwise) (by decide)
  obtain ⟨j, hj, hlt⟩ := exists_down e2
  have hjE : j ∈ edgesOf l := by
    refine List.mem_flatMap.mpr ⟨p, hp, List.mem_append_left _ ?_⟩
    rw [e1]; exact hj
  have hno := edges_noOverlap hv
  obtain ⟨F, hF⟩ := exceptional_box (l := (edgesOf l).filter fun s => decide (s ≠ j)) (T := segPts j) (by
    intro s hs
    obtain ⟨a, b⟩ := List.mem_filter.mp hs
    rw [decide_eq_true_eq] at b
    haveI : Std.Symm Apart := ⟨fun _ _ => apart_symm⟩
    exact hno.2.forall a hjE b)
  obtain ⟨z, hz1, hz2⟩ : ∃ z, z ∈ openSeg j.start j.end ∧ z ∉ F := by
    obtain ⟨q, h1, h2, h3⟩ := shrink_dir (p := j.start) (q := j.end) hlt.ne F
    have hm : lerp j.start q (1/2) ∈ openSeg j.start q := ⟨1/2, by norm_num, by norm_num, rfl⟩
    exact ⟨_, h2 hm, fun k => h3 _ k hm⟩
  refine ⟨z, ?_⟩
  have hd := hE.dir j hjE z hz1 fun s hs hne k => hF z hz2 ⟨s, List.mem_filter.mpr ⟨hs, decide_eq_true hne⟩, k⟩
    (openSeg_sub hz1)
  have : goesUp j = false := by
    rw [← Bool.not_eq_true, goesUp_iff hlt.ne']
    exact hlt.asymm
  rw [this] at hd
  simpa using hd.symm

section
variable {ε : ℚ} {op : ShpOp} {first second full1 full2 : List Segment} {R1 R2 : Set Point} {stop : Point → Bool}
  {S : Shp} {M : Mix} {acc : List ℕ}

/-- A selected piece is a part of an edge. -/
theorem Fin.part (h : Fin ε op first second full1 full2 R1 R2 stop S M acc) {x : ℕ} (hx : x ∈ chosen S acc) :
    segPts (segOf S x) ⊆ segPts (segAt (first ++ second) (S.lin.sid x)) := by
  have hL := (h.mem_chosen.mp hx).1
  intro q hq
  rw [mem_segAt_iff h.good (h.wf.sidLt x hL)]
  obtain ⟨a, b, c⟩ := (mem_pieceOf h.wf hL q).mp hq
  exact ⟨a, (h.wf.inA x hL).trans b, c.trans (h.wf.inB x hL)⟩

/-- A piece of the subtrahend left by the subtraction is in the minuend. -/
theorem Fin.subtracted (h : Fin ε .difference first second full1 full2 R1 R2 stop S M acc)
    (cl : Close ε .difference first second full1 full2 stop) {x : ℕ} (hx : x ∈ chosen S acc)
    (hb : opB (ctxOf first second ε) (S.lin.sid x) = false) {q : Point} (hq : q ∈ segPts (segOf S x))
    (hP : q ∉ (ctxOf first second ε).P) : q ∈ segsPts full1 ∨ q ∈ R1 := by
  obtain ⟨hL, hs, hf⟩ := h.mem_chosen.mp hx
  have sel := h.sel hL hs
  rw [hf, hb] at sel
  have ax := (mem_pieceOf h.wf hL q).mp hq
  have he := h.closed cl hL hs hf
  have key := h.two.s2.key h.h2 (x := x) (p := q)
  rw [← h.rel.lin] at key
  refine (key hL hb hs hP ax ⟨_, end_mem h.wf hL, he, ax.2.2⟩).mp ?_
  rw [h.overlap_eq, ← h.rel.other]
  unfold sdet at sel
  generalize S.kind x = k at sel ⊢
  generalize flag S.other x = o at sel ⊢
  revert sel
  cases k <;> cases o <;> decide

end

theorem Plan.run {op : ShpOp} {l1 l2 : List Polygon} {first second : List Segment} {stop : Point → Bool}
    (h : Plan op l1 l2 first second stop) : ∃ ps, op.run stop first second = .ok ps ∧ Ran op l1 l2 ps := by
  obtain ⟨ε, M, gP, gC, hf, hok, gl, cl⟩ := h.fin
  obtain ⟨a, Cs, hI, hsame, hred⟩ := hf.reduced gl cl
  have ho := hf.outcome gl cl hI hsame
  refine ⟨polys Cs.length (fun j => a.internal.getD j false) (fun j => a.parents.getD j none)
    (fun j => a.vertices.getD j []), ?_, ?_⟩
  · unfold ShpOp.run
    have : ((Shp.init first second).loop op stop (Lin.fuel (first.length + second.length)) []) =
      Plan.swept op first second stop := rfl
    rw [this]
    simp only
    rw [hok, hred]
    rfl
  · have off : ∀ q, q ∉ segsPts (edgesOf l1) → q ∉ segsPts (edgesOf l2) →
        ∀ c ∈ (polys Cs.length (fun j => a.internal.getD j false) (fun j => a.parents.getD j none)
          (fun j => a.vertices.getD j [])).flatMap polygonContours, q ∉ segsPts c.segments := by
      intro q q1 q2 c hc k
      have hq : q ∈ segsPts ((chosen (Plan.swept op first second stop).1 (Plan.swept op first second stop).2).map
            (segOf (Plan.swept op first second stop).1)) := by
        rw [← ho.pts]
        obtain ⟨s, hs, hq⟩ := k
        exact ⟨s, List.mem_flatMap.mpr ⟨c, hc, hs⟩, hq⟩
      obtain ⟨s, hs, hq⟩ := hq
      obtain ⟨x, hx, rfl⟩ := List.mem_map.mp hs
      have hL := (hf.mem_chosen.mp hx).1
      have part := hf.part hx hq
      rcases hb : opB (ctxOf first second ε) ((Plan.swept op first second stop).1.lin.sid x) with _ | _
      · exact q2 ⟨_, h.sub2.subset (hf.two.s2.opT (hf.wf.sidLt x hL) hb), part⟩
      · exact q1 ⟨_, h.sub1.subset (hf.two.s1.opT (hf.wf.sidLt x hL) hb), part⟩
    refine ⟨ho.simple, ho.border, ho.holes, ?_, ?_, ?_, ?_, ?_, ?_⟩
    · intro X hX h1 h2
      refine ho.noOv X ⟨?_, ?_⟩
      · intro s hs
        rcases List.mem_append.mp hs with k | k
        · obtain ⟨x, hx, rfl⟩ := List.mem_map.mp k
          exact (hf.start_lt hx).ne
        · exact hX.1 s k
      · refine List.pairwise_append.mpr ⟨?_, hX.2, ?_⟩
        · rw [List.pairwise_map]
          have nd : (chosen (Plan.swept op first second stop).1 (Plan.swept op first second stop).2).Nodup := hf.h1.nd.filter _
          refine List.Pairwise.imp_of_mem ?_ nd
          intro x y hx hy hxy
          exact (hf.noded cl hx hy hxy).1
        · intro s hs u hu
          obtain ⟨x, hx, rfl⟩ := List.mem_map.mp hs
          have hL := (hf.mem_chosen.mp hx).1
          have part := hf.part hx
          have mono : ∀ t, segPts (segOf (Plan.swept op first second stop).1 x) ⊆ segPts t → Apart t u →
              Apart (segOf (Plan.swept op first second stop).1 x) u := by
            rintro t k z p ⟨p1, p2⟩ q ⟨q1, q2⟩
            exact z p ⟨k p1, p2⟩ q ⟨k q1, q2⟩
          rcases hb : opB (ctxOf first second ε) ((Plan.swept op first second stop).1.lin.sid x) with _ | _
          · have ht := h.sub2.subset (hf.two.s2.opT (hf.wf.sidLt x hL) hb)
            rcases h2 u hu with k | ⟨rfl, k⟩
            · exact mono _ part (k _ ht)
            · by_contra hn
              obtain ⟨F, hF⟩ := exceptional_box (l := edgesOf l1) (T := segPts u) (fun t ht => h1 u hu t ht)
              obtain ⟨q, hqF, q1, q2⟩ := exists_common hn (F ++ (ctxOf first second ε).P.toList)
              rw [List.mem_append, not_or, Finset.mem_toList] at hqF
              rcases hf.subtracted cl hx hb q1 hqF.2 with z | z
              · exact hF q hqF.1 z q2
              · exact Set.disjoint_left.mp k q2 z
          · have ht := h.sub1.subset (hf.two.s1.opT (hf.wf.sidLt x hL) hb)
            exact mono _ part (h1 u hu _ ht)
    · rw [ho.pts]
      rintro q ⟨s, hs, hq⟩
      obtain ⟨x, hx, rfl⟩ := List.mem_map.mp hs
      have hL := (hf.mem_chosen.mp hx).1
      have part := hf.part hx hq
      rcases hb : opB (ctxOf first second ε) ((Plan.swept op first second stop).1.lin.sid x) with _ | _
      · exact Or.inr ⟨_, h.sub2.subset (hf.two.s2.opT (hf.wf.sidLt x hL) hb), part⟩
      · exact Or.inl ⟨_, h.sub1.subset (hf.two.s1.opT (hf.wf.sidLt x hL) hb), part⟩
    · intro q q1 q2 a' b' ha hb
      have hpt := hf.point gl cl q
      rw [← ho.par q] at hpt
      have e1 : downParity ε q (edgesOf l1) = a' := bool_eq_of_iff ((hf.two.s2.edges.off q q1).trans ha.symm)
      have e2 : downParity ε q (edgesOf l2) = b' := bool_eq_of_iff ((hf.two.s1.edges.off q q2).trans hb.symm)
      rw [e1, e2] at hpt
      rw [← hpt]
      refine xorAll_congr fun c hc => ?_
      refine (downParity_locate (fun s hs => ?_) fun k => ?_).symm
      · exact contour_Xe (fun u hu v hv k => gP u (ho.mem c hc u hu) v (ho.mem c hc v hv) k) (ho.simple c hc).2.2 hs
      · exact off q q1 q2 c hc k
    · rintro rfl hl he
      obtain ⟨z, hz⟩ := exists_odd h.v1 hl hf.two.s2.edges
      have hpt := hf.point gl cl z
      rw [← ho.par z, he, hz] at hpt
      simp [xorAll, opv] at hpt
    · intro hc q q1 q2
      refine hf.located gl cl (h.sparse hc hf.good) gP hI hsame fun j hj => ?_
      exact off q q1 q2 ⟨a.vertices.getD j []⟩ ((polys_perm (m := Cs.length) hI.par fun j => a.vertices.getD j []).mem_iff.mpr
        (List.mem_map.mpr ⟨j, List.mem_range.mpr hj, rfl⟩))
    · intro hc q q1 q2
      refine hf.genValid gl cl (h.sparse hc hf.good) gP hI hsame fun j hj => ?_
      exact off q q1 q2 ⟨a.vertices.getD j []⟩ ((polys_perm (m := Cs.length) hI.par fun j => a.vertices.getD j []).mem_iff.mpr
        (List.mem_map.mpr ⟨j, List.mem_range.mpr hj, rfl⟩))

end Rene.Sweep
