import Verif.Lemmas.Sweep.RelLoop
import Verif.Lemmas.ContourRelate
import Verif.Lemmas.MultiRelate2
import Verif.Lemmas.MultiMulti
import Verif.Lemmas.ShapedCore
import Verif.Spec.LinearRelation
import Verif.Props.Helpers
import Mathlib.Order.Interval.Set.Infinite
import Mathlib.Data.Set.Finite.Lattice

/-! Two contours or multisegments: the relation. -/

namespace Rene
open Spec Sweep

/-! ### Common points -/

theorem infinite_seg {a b : Point} (h : a ≠ b) : (seg a b).Infinite := by
  have : (Set.Icc (0 : ℚ) 1).Infinite := Set.Icc_infinite (by norm_num)
  refine (this.image (f := fun t => lerp a b t) ?_).mono ?_
  · intro s _ t _ hst
    have h1 := congrArg Point.x hst
    have h2 := congrArg Point.y hst
    simp only [lerp] at h1 h2
    by_contra hne
    apply h
    have e1 : (b.x - a.x) * (s - t) = 0 := by linear_combination h1
    have e2 : (b.y - a.y) * (s - t) = 0 := by linear_combination h2
    have h3 : s - t ≠ 0 := sub_ne_zero.mpr hne
    refine Point.ext' ?_ ?_
    · rcases mul_eq_zero.mp e1 with k | k
      · linarith
      · exact absurd k h3
    · rcases mul_eq_zero.mp e2 with k | k
      · linarith
      · exact absurd k h3
  · rintro _ ⟨t, ⟨h0, h1⟩, rfl⟩
    exact ⟨t, h0, h1, rfl⟩

theorem seg_sub_seg {a b p q : Point} (hp : p ∈ seg a b) (hq : q ∈ seg a b) : seg p q ⊆ seg a b := by
  obtain ⟨s, s0, s1, rfl⟩ := hp
  obtain ⟨t, t0, t1, rfl⟩ := hq
  rintro _ ⟨u, u0, u1, rfl⟩
  refine ⟨s + u * (t - s), ?_, ?_, ?_⟩
  · nlinarith
  · nlinarith
  · refine Point.ext' ?_ ?_ <;> simp only [lerp] <;> ring

/-- Finite unions of segments have infinitely many common points if and only if two of the segments have two. -/
theorem infinite_iff {l l' : List Segment} : (segsPts l ∩ segsPts l').Infinite ↔
    ∃ s ∈ l, ∃ t ∈ l', ¬ AtMostOne (segPts s ∩ segPts t) := by
  constructor
  · intro h
    by_contra hn
    push Not at hn
    apply h
    have e : segsPts l ∩ segsPts l' = ⋃ s ∈ {s | s ∈ l}, ⋃ t ∈ {t | t ∈ l'}, segPts s ∩ segPts t := by
      ext p
      simp only [Set.mem_iUnion, Set.mem_setOf_eq, Set.mem_inter_iff]
      constructor
      · rintro ⟨⟨s, hs, h1⟩, t, ht, h2⟩; exact ⟨s, hs, t, ht, h1, h2⟩
      · rintro ⟨s, hs, t, ht, h1, h2⟩; exact ⟨⟨s, hs, h1⟩, t, ht, h2⟩
    rw [e]
    refine Set.Finite.biUnion (List.finite_toSet l) fun s hs => Set.Finite.biUnion (List.finite_toSet l') fun t ht => ?_
    exact Set.Subsingleton.finite fun p hp q hq => hn s hs t ht p hp q hq
  · rintro ⟨s, hs, t, ht, h⟩
    unfold AtMostOne at h
    push Not at h
    obtain ⟨p, ⟨p1, p2⟩, q, ⟨q1, q2⟩, hpq⟩ := h
    refine (infinite_seg hpq).mono fun r hr => ⟨⟨s, hs, seg_sub_seg p1 q1 hr⟩, t, ht, seg_sub_seg p2 q2 hr⟩

/-! ### The sweep -/

section
variable {first second : List Segment} {ε : ℚ}

theorem inOp_true (gd : (ctxOf first second ε).Good) (q : Point) :
    InOp (ctxOf first second ε) true q ↔ q ∈ segsPts first := by
  rw [← inF_iff gd]
  unfold InOp InF Side
  simp only [decide_eq_true_eq]

theorem inOp_false (gd : (ctxOf first second ε).Good) (q : Point) :
    InOp (ctxOf first second ε) false q ↔ q ∈ segsPts second := by
  rw [← inS_iff gd]
  unfold InOp InS Side
  simp only [decide_eq_false_iff_not]

theorem noded_segAt {l : List Segment} (h : l.Pairwise Noded) {i j : ℕ} (hi : i < l.length) (hj : j < l.length)
    (hij : i ≠ j) : Noded (segAt l i) (segAt l j) := by
  unfold segAt
  rw [List.getD_eq_getElem?_getD, List.getElem?_eq_getElem hi, List.getD_eq_getElem?_getD,
    List.getElem?_eq_getElem hj]
  rw [List.pairwise_iff_getElem] at h
  simp only [Option.getD_some]
  rcases lt_or_gt_of_ne hij with k | k
  · exact h i j hi hj k
  · obtain ⟨h1, h2⟩ := h j i hj hi k
    refine ⟨?_, fun p p1 p2 => (h2 p p2 p1).symm⟩
    unfold Apart at *
    rw [Set.inter_comm]; exact h1

theorem nod_of (gd : (ctxOf first second ε).Good) (h1 : FullyNoded first) (h2 : FullyNoded second) :
    Nod (ctxOf first second ε) := by
  intro i hi j hj hij hop q oi oj a1 a2 b1 b2
  have m1 := (mem_segAt_iff gd hi q).mpr ⟨oi, a1.le, a2.le⟩
  have m2 := (mem_segAt_iff gd hj q).mpr ⟨oj, b1, b2⟩
  have hN : Noded (segAt (first ++ second) i) (segAt (first ++ second) j) := by
    have hi' : i < (first ++ second).length := hi
    have hj' : j < (first ++ second).length := hj
    have hF : (ctxOf first second ε).F = first.length := rfl
    rw [hF] at hop
    rw [List.length_append] at hi' hj'
    by_cases k : i < first.length
    · rw [segAt_append_left k, segAt_append_left (hop.mp k)]
      exact noded_segAt h1.2 k (hop.mp k) hij
    · have k' : ¬ j < first.length := fun z => k (hop.mpr z)
      rw [segAt_append_right (not_lt.mp k), segAt_append_right (not_lt.mp k')]
      exact noded_segAt h2.2 (by omega) (by omega) (by omega)
  have e1 : (ctxOf first second ε).A i = lo (segAt (first ++ second) i) := rfl
  have e2 : (ctxOf first second ε).B i = Sweep.hi (segAt (first ++ second) i) := rfl
  rw [e1] at a1
  rw [e2] at a2
  rcases lo_hi (segAt (first ++ second) i) with ⟨k1, k2, -⟩ | ⟨k1, k2, -⟩ <;> rw [k1] at a1 <;> rw [k2] at a2 <;>
    rcases (hN.2 q m1 m2).1 with rfl | rfl <;> linarith

/-- Overlapping segments of both operands. -/
theorem overAt_iff (gd : (ctxOf first second ε).Good) :
    (∃ q ∈ (ctxOf first second ε).P, OverAt (ctxOf first second ε) q) ↔
      (segsPts first ∩ segsPts second).Infinite := by
  set c := ctxOf first second ε with hc
  have hN : c.N = (first ++ second).length := rfl
  have hF : c.F = first.length := rfl
  rw [infinite_iff]
  constructor
  · rintro ⟨q, -, i, hi, j, hj, si, sj, on, hcl, p1, p2⟩
    unfold Side at si sj
    rw [decide_eq_true_eq, hF] at si
    rw [decide_eq_false_iff_not, hF] at sj
    have hi' := hi
    have hj' := hj
    rw [hN, List.length_append] at hi' hj'
    refine ⟨segAt first i, segAt_mem si, segAt second (j - first.length), segAt_mem (by omega), fun h => ?_⟩
    rw [← segAt_append_left (l' := second) si, ← segAt_append_right (l := first) (not_lt.mp sj)] at h
    -- the end of the shorter one
    obtain ⟨r, r1, r2, r3, r4⟩ : ∃ r, c.On i r ∧ c.X q < c.X r ∧ c.X r ≤ c.X (c.B i) ∧ c.X r ≤ c.X (c.B j) := by
      rcases le_total (c.X (c.B i)) (c.X (c.B j)) with k | k
      · exact ⟨c.B i, gd.onB i hi, p1.2, le_rfl, k⟩
      · exact ⟨c.B j, Ctx.On.coll hcl.symm (gd.onB j hj), p2.2, k, le_rfl⟩
    have q1 := p1.1
    have q2 := p2.1
    have := h q ⟨(mem_segAt_iff gd hi q).mpr ⟨on, p1.1, p1.2.le⟩,
      (mem_segAt_iff gd hj q).mpr ⟨Ctx.On.coll hcl on, p2.1, p2.2.le⟩⟩ r
      ⟨(mem_segAt_iff gd hi r).mpr ⟨r1, by linarith, r3⟩,
        (mem_segAt_iff gd hj r).mpr ⟨Ctx.On.coll hcl r1, by linarith, r4⟩⟩
    rw [this] at r2
    exact lt_irrefl _ r2
  · rintro ⟨s, hs, t, ht, h⟩
    obtain ⟨i, si, rfl⟩ := mem_segAt hs
    obtain ⟨j, sj, rfl⟩ := mem_segAt ht
    have hi : i < c.N := by rw [hN, List.length_append]; omega
    have hj : first.length + j < c.N := by rw [hN, List.length_append]; omega
    have ej : segAt second j = segAt (first ++ second) (first.length + j) := by
      rw [segAt_append_right (by omega), Nat.add_sub_cancel_left]
    rw [ej, ← segAt_append_left (l' := second) si] at h
    unfold AtMostOne at h
    push Not at h
    obtain ⟨p, ⟨p1, p2⟩, q, ⟨q1, q2⟩, hpq⟩ := h
    obtain ⟨op, pa, pb⟩ := (mem_segAt_iff gd hi p).mp p1
    obtain ⟨op', pa', pb'⟩ := (mem_segAt_iff gd hj p).mp p2
    obtain ⟨oq, qa, qb⟩ := (mem_segAt_iff gd hi q).mp q1
    obtain ⟨oq', qa', qb'⟩ := (mem_segAt_iff gd hj q).mp q2
    have hX : c.X p ≠ c.X q := fun z => hpq (Ctx.On.eq_of_X op oq z)
    have hcl : c.Coll i (first.length + j) := Ctx.coll_of_two hX (op.symm.trans op') (oq.symm.trans oq')
    -- the later beginning
    obtain ⟨u, uP, uo, u1, u2, u3⟩ : ∃ u ∈ c.P, c.On i u ∧ c.X (c.A i) ≤ c.X u ∧ c.X (c.A (first.length + j)) ≤ c.X u ∧
        (c.X u = c.X (c.A i) ∨ c.X u = c.X (c.A (first.length + j))) := by
      rcases le_total (c.X (c.A i)) (c.X (c.A (first.length + j))) with k | k
      · exact ⟨_, gd.memA _ hj, Ctx.On.coll hcl.symm (gd.onA _ hj), k, le_rfl, Or.inr rfl⟩
      · exact ⟨_, gd.memA _ hi, gd.onA _ hi, le_rfl, k, Or.inl rfl⟩
    have key : c.X u < c.X (c.B i) ∧ c.X u < c.X (c.B (first.length + j)) := by
      rcases lt_or_gt_of_ne hX with k | k <;> rcases u3 with z | z <;> constructor <;>
        simp only [← hc] at * <;> linarith
    refine ⟨u, uP, i, hi, first.length + j, hj, ?_, ?_, uo, hcl, ⟨u1, key.1⟩, u2, key.2⟩
    · unfold Side; rw [decide_eq_true_eq]; exact si
    · unfold Side; rw [decide_eq_false_iff_not, hF]; omega

theorem int_iff (gd : (ctxOf first second ε).Good) :
    (∃ q ∈ (ctxOf first second ε).P, InOp (ctxOf first second ε) true q ∧ InOp (ctxOf first second ε) false q) ↔
      (segsPts first ∩ segsPts second).Nonempty := by
  constructor
  · rintro ⟨q, -, h1, h2⟩
    exact ⟨q, (inOp_true gd q).mp h1, (inOp_false gd q).mp h2⟩
  · rintro ⟨q, h1, h2⟩
    obtain ⟨i, hi, si, oi, a1, a2⟩ := (inOp_true gd q).mpr h1
    obtain ⟨j, hj, sj, oj, b1, b2⟩ := (inOp_false gd q).mpr h2
    by_cases hc : (ctxOf first second ε).Coll i j
    · rcases le_total ((ctxOf first second ε).X ((ctxOf first second ε).A i))
        ((ctxOf first second ε).X ((ctxOf first second ε).A j)) with k | k
      · exact ⟨_, gd.memA j hj, ⟨i, hi, si, Ctx.On.coll hc.symm (gd.onA j hj), k, b1.trans a2⟩, j, hj, sj,
          gd.onA j hj, le_rfl, b1.trans b2⟩
      · exact ⟨_, gd.memA i hi, ⟨i, hi, si, gd.onA i hi, le_rfl, a1.trans a2⟩, j, hj, sj,
          Ctx.On.coll hc (gd.onA i hi), k, a1.trans b2⟩
    · exact ⟨q, gd.cross i hi j hj hc q oi oj a1 a2 b1 b2, ⟨i, hi, si, oi, a1, a2⟩, j, hj, sj, oj, b1, b2⟩

/-- The result of the sweep. -/
theorem toRelation_spec (h1 : FullyNoded first) (h2 : FullyNoded second) (n1 : first ≠ []) {fs ss : Bool} {m : ℚ}
    (hm : (∀ q ∈ segsPts first, q.x ≤ m) ∨ ∀ q ∈ segsPts second, q.x ≤ m) :
    ∃ st : RelationState, (Lin.init first second).toRelation (first.length + second.length) fs ss m = .ok st.relation ∧
      (st.firstIsSubset = true ↔ fs = true ∧ segsPts first ⊆ segsPts second) ∧
      (st.secondIsSubset = true ↔ ss = true ∧ segsPts second ⊆ segsPts first) ∧
      (st.hasOverlap = true ↔ (segsPts first ∩ segsPts second).Infinite) ∧
      (st.hasIntersection = true ↔ (segsPts first ∩ segsPts second).Nonempty) ∧
      (st.hasCrossing = true → st.hasIntersection = true) := by
  have no1 : NoOverlap first := ⟨h1.1, h1.2.imp fun h => h.1⟩
  have no2 : NoOverlap second := ⟨h2.1, h2.2.imp fun h => h.1⟩
  obtain ⟨ε, gd⟩ := exists_good no1 no2
  have hne : first ++ second ≠ [] := fun z => n1 (List.append_eq_nil_iff.mp z).1
  obtain ⟨p0, h0⟩ := init_inv gd hne
  have hn := nod_of gd h1 h2
  unfold Lin.toRelation
  cases hpop : (Lin.init first second).popEvent with
  | none =>
    exfalso
    have hq := popEvent_none hpop
    have : (0 : ℕ) ∈ (Lin.init first second).queue := by
      rw [init_queue, init_cnt]
      have := List.length_pos_of_ne_nil hne
      omega
    rw [hq] at this
    simp at this
  | some e =>
    obtain ⟨i1, -⟩ := h0.step gd hpop
    have l := least_of_pop gd h0.wf h0.qlt hpop
    have gn : GInv _ (Lin.init first second) ((Lin.init first second).start e) [] :=
      GInv.new i1 fun x hx hxq => absurd ((init_queue x).mpr hx) hxq
    obtain ⟨g2, s⟩ := gn.step gd hpop rfl
    have hmeas := init_meas (first := first) (second := second) (ε := ε)
    have hsm := s.meas
    -- nothing is before the first point
    have none_before : ∀ q ∈ (ctxOf first second ε).P, ¬ (ctxOf first second ε).X q <
        (ctxOf first second ε).X ((Lin.init first second).start e) := by
      intro q hq k
      obtain ⟨i, hi, on, k1, k2⟩ := mem_on gd hq
      have hb := h0.wf.big
      have := l.le (2 * i) ((init_queue _).mpr (by omega))
      unfold lx at this
      rw [h0.wf.initA i hi] at this
      linarith
    have r0 : RSt (ctxOf first second ε) (fun q => (ctxOf first second ε).X q <
        (ctxOf first second ε).X ((Lin.init first second).start e))
        { firstIsSubset := fs, secondIsSubset := ss } { firstIsSubset := fs, secondIsSubset := ss } := by
      refine ⟨fun b => ?_, ?_, ?_, rfl, by simp⟩
      · constructor
        · exact fun h => ⟨h, fun q hq k => absurd k (none_before q hq)⟩
        · exact fun h => h.1
      · simp only [Bool.false_eq_true, false_iff]
        rintro ⟨q, hq, k, -⟩; exact none_before q hq k
      · simp only [Bool.false_eq_true, false_iff]
        rintro ⟨q, hq, k, -⟩; exact none_before q hq k
    have main : ∃ b0 : Bool, ∀ q, InOp (ctxOf first second ε) b0 q → q.x ≤ m := by
      rcases hm with k | k
      · exact ⟨true, fun q hq => k q ((inOp_true gd q).mp hq)⟩
      · exact ⟨false, fun q hq => k q ((inOp_false gd q).mp hq)⟩
    obtain ⟨b0, hb0⟩ := main
    obtain ⟨R, hok⟩ := relateLoop_spec gd hn hb0 (Lin.fuel (first.length + second.length))
      ((Lin.init first second).process e) { firstIsSubset := fs, secondIsSubset := ss }
      ((Lin.init first second).start e) ([] ++ [e]) g2 (by simp) r0 (by omega)
    rw [List.nil_append] at R hok
    simp only
    rw [hok, s.ok, init_ok gd, R.ok]
    refine ⟨_, rfl, ?_, ?_, R.ov.trans (overAt_iff gd), R.int.trans (int_iff gd), R.cr⟩
    · have k1 := R.sub true
      have k2 := R.out true
      simp only [sub, if_true, Bool.not_true, inOp_true gd, inOp_false gd] at k1 k2
      constructor
      · exact fun h => ⟨(k1 h).1, fun q hq => (k1 h).2 q hq⟩
      · rintro ⟨hf, hs⟩
        by_contra hn
        rcases k2 (by simpa using hn) with z | ⟨q, z1, z2⟩
        · rw [hf] at z; exact absurd z (by decide)
        · exact z2 (hs z1)
    · have k1 := R.sub false
      have k2 := R.out false
      simp only [sub, Bool.false_eq_true, if_false, Bool.not_false, inOp_true gd, inOp_false gd] at k1 k2
      constructor
      · exact fun h => ⟨(k1 h).1, fun q hq => (k1 h).2 q hq⟩
      · rintro ⟨hf, hs⟩
        by_contra hn
        rcases k2 (by simpa using hn) with z | ⟨q, z1, z2⟩
        · rw [hf] at z; exact absurd z (by decide)
        · exact z2 (hs z1)

end

/-! ### A segment and some of the edges of a contour -/

/-- What holds for the answer of `relate_to_contour_segments` about any list of edges. -/
def WeakRel (r : Relation) (a b : Point) (edges : List Segment) : Prop :=
  (r = .component ∧ ∃ e ∈ edges, seg a b ⊆ segPts e) ∨ (r = .overlap ∧ HasOverlap a b edges) ∨
  ((r = .cross ∨ r = .touch) ∧ ¬ HasOverlap a b edges ∧ (seg a b ∩ segsPts edges).Nonempty) ∨
  (r = .disjoint ∧ seg a b ∩ segsPts edges = ∅)

/-- Invariant of the scan of any list of edges. -/
structure WeakScan (a b : Point) (pre : List Segment) (s : ContourScan) : Prop where
  one : ∀ e ∈ pre, AtMostOne (seg a b ∩ segPts e)
  any : (s.hasNoCross = false ∨ s.hasNoTouch = false) ↔ (seg a b ∩ segsPts pre).Nonempty
  last : s.hasNoTouch = false → (∃ i, s.lastTouchedEdgeIndex = some i) ∧ ∃ q, s.lastTouchedEdgeStart = some q

theorem touch_weak {s : ContourScan} {a b : Point} {i : ℕ} {e : Segment}
    (h : s.hasNoTouch = false → (∃ i, s.lastTouchedEdgeIndex = some i) ∧ ∃ q, s.lastTouchedEdgeStart = some q) :
    ∃ s', s.touch a b i e = .ok s' ∧ s'.hasNoTouch = false ∧ s'.lastTouchedEdgeIndex = some i ∧
      s'.lastTouchedEdgeStart = some e.start := by
  unfold ContourScan.touch
  by_cases h1 : s.hasNoTouch = true
  · rw [if_pos h1]; exact ⟨_, rfl, rfl, rfl, rfl⟩
  · rw [if_neg h1]
    have h1' : s.hasNoTouch = false := by simpa using h1
    obtain ⟨⟨j, hj⟩, q, hq⟩ := h h1'
    by_cases h2 : s.hasNoCross = true
    · rw [if_pos h2, hj, hq]
      simp only
      split
      · exact ⟨_, rfl, h1', rfl, rfl⟩
      · exact ⟨_, rfl, h1', rfl, rfl⟩
    · rw [if_neg h2]; exact ⟨_, rfl, h1', rfl, rfl⟩

theorem weakScan_loop {a b : Point} (hab : a ≠ b) : ∀ (rest pre : List Segment) (s : ContourScan) (i : ℕ),
    WeakScan a b pre s → (∀ e ∈ rest, e.start ≠ e.end) →
    (∃ s', contourScanLoop a b i s rest = .ok (.inr s') ∧ WeakScan a b (pre ++ rest) s') ∨
    (contourScanLoop a b i s rest = .ok (.inl .component) ∧ ∃ e ∈ rest, seg a b ⊆ segPts e) ∨
    (contourScanLoop a b i s rest = .ok (.inl .overlap) ∧ ∃ e ∈ rest, ¬ AtMostOne (seg a b ∩ segPts e)) := by
  intro rest
  induction rest with
  | nil =>
    intro pre s i h _
    exact Or.inl ⟨s, rfl, by simpa using h⟩
  | cons e rest ih =>
    intro pre s i h hc
    have hee : e.start ≠ e.end := hc e (by simp)
    have hr := relate_sound hab hee
    have e1 : pre ++ e :: rest = (pre ++ [e]) ++ rest := by simp
    have next : ∀ s', WeakScan a b (pre ++ [e]) s' →
        contourScanLoop a b i s (e :: rest) = contourScanLoop a b (i + 1) s' rest →
        (∃ s', contourScanLoop a b i s (e :: rest) = .ok (.inr s') ∧ WeakScan a b (pre ++ e :: rest) s') ∨
        (contourScanLoop a b i s (e :: rest) = .ok (.inl .component) ∧ ∃ x ∈ e :: rest, seg a b ⊆ segPts x) ∨
        (contourScanLoop a b i s (e :: rest) = .ok (.inl .overlap) ∧
          ∃ x ∈ e :: rest, ¬ AtMostOne (seg a b ∩ segPts x)) := by
      intro s' hs' heq
      have := ih (pre ++ [e]) s' (i + 1) hs' (fun x hx => hc x (List.mem_cons_of_mem _ hx))
      rw [← heq, ← e1] at this
      rcases this with h2 | ⟨h2, x, hx, h3⟩ | ⟨h2, x, hx, h3⟩
      · exact Or.inl h2
      · exact Or.inr (Or.inl ⟨h2, x, List.mem_cons_of_mem _ hx, h3⟩)
      · exact Or.inr (Or.inr ⟨h2, x, List.mem_cons_of_mem _ hx, h3⟩)
    have one : AtMostOne (seg a b ∩ segPts e) → ∀ x ∈ pre ++ [e], AtMostOne (seg a b ∩ segPts x) := by
      intro k x hx
      rcases List.mem_append.mp hx with hx | hx
      · exact h.one x hx
      · rw [List.mem_singleton] at hx; subst hx; exact k
    have ne : (seg a b ∩ segPts e).Nonempty → (seg a b ∩ segsPts (pre ++ [e])).Nonempty :=
      fun ⟨p, p1, p2⟩ => ⟨p, p1, e, by simp, p2⟩
    rcases hrel : relateToSegmentEndpoints a b e.start e.end <;> rw [hrel] at hr <;> try exact hr.elim
    · exact Or.inr (Or.inl ⟨by rw [contourScanLoop, hrel]; rfl, e, by simp, hr.1⟩)
    · refine Or.inr (Or.inr ⟨by rw [contourScanLoop, hrel]; rfl, e, by simp, ?_⟩)
      unfold segPts
      rw [Set.inter_eq_right.mpr hr.1]
      exact not_atMostOne_seg hee
    · obtain ⟨p, hp, -⟩ := hr
      refine next { s with hasNoCross := false } ⟨one (by unfold segPts; rw [hp]; exact atMostOne_singleton p), ?_, h.last⟩
        (by rw [contourScanLoop, hrel])
      exact iff_of_true (Or.inl rfl) (ne (by unfold segPts; rw [hp]; exact Set.singleton_nonempty p))
    · have hr' : seg a b ∩ segPts e = ∅ := hr
      refine next s ⟨one (by rw [hr']; intro p hp; exact absurd hp (by simp)), ?_, h.last⟩ (by rw [contourScanLoop, hrel])
      rw [h.any]
      constructor
      · rintro ⟨p, p1, x, hx, p2⟩; exact ⟨p, p1, x, by simp [hx], p2⟩
      · rintro ⟨p, p1, x, hx, p2⟩
        rcases List.mem_append.mp hx with hx | hx
        · exact ⟨p, p1, x, hx, p2⟩
        · rw [List.mem_singleton] at hx
          subst hx
          have : p ∈ seg a b ∩ segPts x := ⟨p1, p2⟩
          rw [hr'] at this
          exact absurd this (by simp)
    · exact Or.inr (Or.inl ⟨by rw [contourScanLoop, hrel]; rfl, e, by simp, (hr : seg a b = _).le⟩)
    · exact Or.inr (Or.inr ⟨by rw [contourScanLoop, hrel]; rfl, e, by simp, hr.2.2⟩)
    · obtain ⟨p, hp, -⟩ := hr
      obtain ⟨s', t1, t2, t3, t4⟩ := touch_weak (a := a) (b := b) (i := i) (e := e) h.last
      refine next s' ⟨one (by unfold segPts; rw [hp]; exact atMostOne_singleton p), ?_, fun _ => ⟨⟨_, t3⟩, _, t4⟩⟩
        (by rw [contourScanLoop, hrel, t1]; rfl)
      exact iff_of_true (Or.inr t2) (ne (by unfold segPts; rw [hp]; exact Set.singleton_nonempty p))

/-- The answer about any list of edges. -/
theorem relateToContourSegments_weak {a b : Point} (hab : a ≠ b) {edges : List Segment} (hne : edges ≠ [])
    (hd : ∀ e ∈ edges, e.start ≠ e.end) : ∃ r, relateToContourSegments a b edges = .ok r ∧ WeakRel r a b edges := by
  cases edges with
  | nil => exact absurd rfl hne
  | cons first rest =>
    unfold relateToContourSegments
    simp only
    rcases weakScan_loop hab (first :: rest) [] {} 0 ⟨by simp, by
        simp only [Bool.true_eq_false, or_self, false_iff]
        rintro ⟨p, -, x, hx, -⟩; simp at hx, by simp⟩ hd with ⟨s, h1, h2⟩ | ⟨h1, h2⟩ | ⟨h1, h2⟩
    · rw [h1]
      rw [List.nil_append] at h2
      have fin : ∀ x : Bool, (s.hasNoTouch = true → x = s.hasNoCross) →
          WeakRel (if x = true then (if s.hasNoTouch = true then Relation.disjoint else .touch) else .cross) a b
            (first :: rest) := by
        intro x hx
        have no : ¬ HasOverlap a b (first :: rest) := not_hasOverlap_iff.mpr h2.one
        by_cases hxt : x = true
        · rw [if_pos hxt]
          by_cases ht : s.hasNoTouch = true
          · rw [if_pos ht]
            right; right; right
            refine ⟨rfl, Set.not_nonempty_iff_eq_empty.mp fun z => ?_⟩
            rcases h2.any.mpr z with k | k
            · rw [← hx ht, hxt] at k; exact absurd k (by decide)
            · rw [ht] at k; exact absurd k (by decide)
          · rw [if_neg ht]
            right; right; left
            exact ⟨Or.inr rfl, no, h2.any.mp (Or.inr (by simpa using ht))⟩
        · rw [if_neg hxt]
          right; right; left
          refine ⟨Or.inl rfl, no, h2.any.mp ?_⟩
          by_cases ht : s.hasNoTouch = true
          · left; rw [← hx ht]; simpa using hxt
          · right; simpa using ht
      show ∃ r, (do
        let hasNoCross ←
          if s.hasNoTouch = false ∧ s.hasNoCross ∧ s.lastTouchedEdgeIndex = some ((first :: rest).length - 1) ∧
              (a ≠ first.start ∧ first.start ≠ b) ∧ (a ≠ first.end ∧ first.end ≠ b) ∧
              orient a b first.start = .collinear then
            match s.lastTouchedEdgeStart with
            | none => throw Err.assertionError
            | some lastStart =>
              pure (if pointVertexLineDividesAngle a first.start lastStart first.end then false else s.hasNoCross)
          else pure s.hasNoCross
        pure (if hasNoCross then (if s.hasNoTouch then Relation.disjoint else .touch) else .cross) : Except Err Relation)
          = .ok r ∧ WeakRel r a b (first :: rest)
      by_cases hcond : s.hasNoTouch = false ∧ s.hasNoCross ∧ s.lastTouchedEdgeIndex = some ((first :: rest).length - 1) ∧
              (a ≠ first.start ∧ first.start ≠ b) ∧ (a ≠ first.end ∧ first.end ≠ b) ∧
              orient a b first.start = .collinear
      · rw [if_pos hcond]
        obtain ⟨-, q, hq⟩ := h2.last hcond.1
        rw [hq]
        refine ⟨_, rfl, fin _ fun z => ?_⟩
        rw [hcond.1] at z; exact absurd z (by decide)
      · rw [if_neg hcond]
        exact ⟨_, rfl, fin _ fun _ => rfl⟩
    · rw [h1]; exact ⟨_, rfl, Or.inl ⟨rfl, h2⟩⟩
    · rw [h1]; exact ⟨_, rfl, Or.inr (Or.inl ⟨rfl, h2⟩)⟩

/-! ### A contour is not a part of a segment -/

theorem contour_not_sub (c : Contour) (hc : 3 ≤ c.vertices.length) (hn : NoOverlap c.segments) {a b : Point}
    (hab : a ≠ b) : ¬ segsPts c.segments ⊆ seg a b := by
  intro hsub
  have hv : c.vertices ≠ [] := by intro z; rw [z] at hc; simp at hc
  obtain ⟨hlen, hget⟩ := C32_contour_segments c hv
  set n := c.vertices.length with hnl
  have vget : ∀ j, j < n → c.vertices[j]? = some (c.vertices.getD j ⟨0, 0⟩) := by
    intro j hj
    rw [List.getD_eq_getElem?_getD, List.getElem?_eq_getElem hj]; rfl
  obtain ⟨i, hi, hmax⟩ := Finset.exists_max_image (Finset.range n) (fun i => c.vertices.getD i ⟨0, 0⟩)
    ⟨0, Finset.mem_range.mpr (by omega)⟩
  rw [Finset.mem_range] at hi
  -- the previous vertex
  obtain ⟨k, hk, hki⟩ : ∃ k, k < n ∧ (k + 1) % n = i := by
    rcases Nat.eq_zero_or_pos i with z | z
    · exact ⟨n - 1, by omega, by rw [z, Nat.sub_add_cancel (by omega), Nat.mod_self]⟩
    · exact ⟨i - 1, by omega, by rw [Nat.sub_add_cancel (by omega), Nat.mod_eq_of_lt hi]⟩
  have hj : (i + 1) % n < n := Nat.mod_lt _ (by omega)
  set v := c.vertices.getD i ⟨0, 0⟩ with hvd
  set u := c.vertices.getD k ⟨0, 0⟩ with hud
  set w := c.vertices.getD ((i + 1) % n) ⟨0, 0⟩ with hwd
  have s1 := hget k u v (vget k hk) (by rw [hki]; exact vget i hi)
  have s2 := hget i v w (vget i hi) (vget _ hj)
  have hki' : k ≠ i := by
    rintro rfl
    rcases Nat.lt_or_ge (k + 1) n with z | z
    · rw [Nat.mod_eq_of_lt z] at hki; omega
    · have : k + 1 = n := by omega
      rw [this, Nat.mod_self] at hki; omega
  obtain ⟨l1, g1⟩ := List.getElem?_eq_some_iff.mp s1
  obtain ⟨l2, g2⟩ := List.getElem?_eq_some_iff.mp s2
  have m1 : (⟨u, v⟩ : Segment) ∈ c.segments := g1 ▸ List.getElem_mem l1
  have m2 : (⟨v, w⟩ : Segment) ∈ c.segments := g2 ▸ List.getElem_mem l2
  have d1 : u ≠ v := hn.1 _ m1
  have d2 : v ≠ w := hn.1 _ m2
  have lu : u < v := lt_of_le_of_ne (hmax k (Finset.mem_range.mpr hk)) d1
  have lw : w < v := lt_of_le_of_ne (hmax _ (Finset.mem_range.mpr hj)) d2.symm
  have hap : Apart ⟨u, v⟩ ⟨v, w⟩ := by
    have := apart_segAt hn.2 l1 l2 hki'
    unfold segAt at this
    rw [List.getD_eq_getElem?_getD, List.getD_eq_getElem?_getD, s1, s2] at this
    exact this
  have iu : u ∈ seg a b := hsub ⟨_, m1, start_mem_seg _ _⟩
  have iv : v ∈ seg a b := hsub ⟨_, m1, end_mem_seg _ _⟩
  have iw : w ∈ seg a b := hsub ⟨_, m2, end_mem_seg _ _⟩
  have collinear : cr u v w = 0 := by
    obtain ⟨r, -, -, e1⟩ := iu
    obtain ⟨s, -, -, e2⟩ := iv
    obtain ⟨t, -, -, e3⟩ := iw
    rw [e1, e2, e3]
    unfold cr lerp
    ring
  rcases le_total u w with z | z
  · have : w ∈ seg u v := mem_seg_iff.mpr ⟨collinear, Or.inl ⟨z, lw.le⟩⟩
    exact d2 (hap v ⟨end_mem_seg _ _, start_mem_seg _ _⟩ w ⟨this, end_mem_seg _ _⟩)
  · have : u ∈ seg v w := mem_seg_iff.mpr ⟨by
      have e : cr v w u = cr u v w := by unfold cr; ring
      rw [e]; exact collinear, Or.inr ⟨z, lu.le⟩⟩
    exact d1 (hap u ⟨start_mem_seg _ _, this⟩ v ⟨end_mem_seg _ _, start_mem_seg _ _⟩)

end Rene
