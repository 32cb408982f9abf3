import Verif.Lemmas.Sweep.Result
import Verif.Props.SegmentOps

/-! # C34: the sweep behind boolean operations on linear geometries

States reachable by the sweep: the initial state of the two operands, and the state after the body of
`__iter__` for the popped event.  Hypothesis everywhere: no operand overlaps itself (two different
segments of one operand share at most one point); crossings inside an operand are allowed. -/

namespace Rene
open Spec Sweep

/-- States of the sweep after `n` iterations. -/
inductive Reach (first second : List Segment) : Nat → Lin → Prop
  | init : Reach first second 0 (Lin.init first second)
  | step {n : Nat} {S : Lin} {event : Nat} : Reach first second n S → S.popEvent = some event →
      Reach first second (n + 1) (S.process event)

/-- The current subsegment of a left event. -/
def Lin.piece (S : Lin) (event : Nat) : Segment := ⟨S.start event, S.end event⟩

/-- Left events of a state. -/
def Lin.leftEvents (S : Lin) : List Nat := (List.range S.endpoints.length).filter isLeft

theorem mem_leftEvents {S : Lin} {e : ℕ} : e ∈ S.leftEvents ↔ IsL S e := by
  unfold Lin.leftEvents IsL
  rw [List.mem_filter, List.mem_range, isLeft_iff]

section
variable {first second : List Segment}

theorem reach_inv {ε : ℚ} (g : (ctxOf first second ε).Good) {n : ℕ} {S : Lin} (h : Reach first second n S) :
    (first ++ second = [] ∧ S = Lin.init first second ∧ n = 0) ∨
    ((∃ p, Inv (ctxOf first second ε) S p) ∧ S.ok = true ∧
      n + meas (ctxOf first second ε) S ≤ meas (ctxOf first second ε) (Lin.init first second)) := by
  induction h with
  | init =>
    by_cases hne : first ++ second = []
    · exact Or.inl ⟨hne, rfl, rfl⟩
    · exact Or.inr ⟨init_inv g hne, init_ok g, by omega⟩
  | step hr hp ih =>
    rcases ih with ⟨h1, h2, h3⟩ | ⟨⟨p, h1⟩, h2, h3⟩
    · exfalso
      obtain ⟨a, b⟩ := List.append_eq_nil_iff.mp h1
      subst a b h2
      cases hp
    · obtain ⟨_, k, s, _⟩ := h1.step g hp
      refine Or.inr ⟨⟨_, k⟩, s.ok.trans h2, ?_⟩
      have := s.meas
      omega

theorem reach_wf {ε : ℚ} (g : (ctxOf first second ε).Good) {n : ℕ} {S : Lin} (h : Reach first second n S) :
    Wf (ctxOf first second ε) S := by
  rcases reach_inv g h with ⟨_, rfl, _⟩ | ⟨⟨p, k⟩, _⟩
  · exact init_wf g
  · exact k.wf

/-- C34: no `assert` of the sweep (`_detect_intersection`, `EventsQueueKey.__lt__`, `__iter__`) fails, in
any reachable state. -/
theorem C34_no_assertion_fails (h1 : NoOverlap first) (h2 : NoOverlap second) {n : ℕ} {S : Lin}
    (h : Reach first second n S) : S.ok = true := by
  obtain ⟨ε, g⟩ := exists_good h1 h2
  rcases reach_inv g h with ⟨_, rfl, _⟩ | ⟨_, k, _⟩
  · exact init_ok g
  · exact k

/-- C34: every run of the sweep is finite, with a cubic bound on the number of iterations; the fuel of the
modelled loop is never exhausted, so the loop is the Python loop; and a run that is not stopped
processes all events. -/
theorem C34_terminates (h1 : NoOverlap first) (h2 : NoOverlap second) :
    (∀ n S, Reach first second n S → n < Lin.fuel (first.length + second.length)) ∧
    (∀ stop k, (Lin.init first second).loop stop (Lin.fuel (first.length + second.length) + k) [] =
      (Lin.init first second).loop stop (Lin.fuel (first.length + second.length)) []) ∧
    ((Lin.init first second).loop (fun _ => false) (Lin.fuel (first.length + second.length)) []).1.queue = [] := by
  obtain ⟨ε, g⟩ := exists_good h1 h2
  by_cases hne : first ++ second = []
  · obtain ⟨a, b⟩ := List.append_eq_nil_iff.mp hne
    subst a b
    refine ⟨?_, ?_, rfl⟩
    · intro n S h
      rcases reach_inv g h with ⟨_, _, rfl⟩ | ⟨⟨p, k⟩, _, k'⟩
      · decide
      · have := init_meas (first := []) (second := []) (ε := ε)
        simp only [List.length_nil] at *
        omega
    · intro stop k
      rw [Nat.add_comm]
      rfl
  · obtain ⟨p, h⟩ := init_inv g hne
    have hm := init_meas (first := first) (second := second) (ε := ε)
    refine ⟨?_, fun stop k => loop_more g stop _ _ p [] h hm k, loop_empties g _ _ p [] h hm⟩
    intro n S hr
    rcases reach_inv g hr with ⟨k, _⟩ | ⟨_, _, k'⟩
    · exact absurd k hne
    · omega

/-- C34: in every reachable state the keys of the sweep line are strictly sorted, and the key of the
popped left event (or of the left event opposite to the popped right one) splits them, so any search
tree over these keys answers as the model does. -/
theorem C34_sweep_line_sorted (h1 : NoOverlap first) (h2 : NoOverlap second) {n : ℕ} {S : Lin}
    (h : Reach first second n S) :
    S.sweepLine.Pairwise (fun x y => S.sweepLt x y = true ∧ S.sweepLt y x = false) ∧
    ∀ e, S.popEvent = some e →
      (isLeft e = true → ∃ A B, S.sweepLine = A ++ B ∧
        (∀ x ∈ A, S.sweepLt x e = true ∧ S.sweepLt e x = false) ∧
        (∀ x ∈ B, S.sweepLt e x = true ∧ S.sweepLt x e = false)) ∧
      (isLeft e = false → ∃ A B, S.sweepLine = A ++ S.opp e :: B ∧
        (∀ x ∈ A, S.sweepLt x (S.opp e) = true ∧ S.sweepLt (S.opp e) x = false) ∧
        (∀ x ∈ B, S.sweepLt (S.opp e) x = true ∧ S.sweepLt x (S.opp e) = false)) := by
  obtain ⟨ε, g⟩ := exists_good h1 h2
  rcases reach_inv g h with ⟨hn, rfl, _⟩ | ⟨⟨p, k⟩, _⟩
  · obtain ⟨a, b⟩ := List.append_eq_nil_iff.mp hn
    subst a b
    refine ⟨List.Pairwise.nil, fun e he => ?_⟩
    cases he
  · have sp : ∀ {S : Lin} {p : Point}, Inv0 (ctxOf first second ε) S p → ∀ A o B, S.sweepLine = A ++ o :: B →
        (∀ x ∈ A, S.sweepLt x o = true ∧ S.sweepLt o x = false) ∧
        (∀ x ∈ B, S.sweepLt o x = true ∧ S.sweepLt x o = false) := by
      intro S p i A o B hT
      have := i.split hT
      exact ⟨fun x hx => ⟨this.a1 x hx, this.a2 x hx⟩, fun x hx => ⟨this.b2 x hx, this.b1 x hx⟩⟩
    constructor
    · have key : ∀ (l A : List ℕ), S.sweepLine = A ++ l →
          l.Pairwise (fun x y => S.sweepLt x y = true ∧ S.sweepLt y x = false) := by
        intro l
        induction l with
        | nil => intro A _; exact List.Pairwise.nil
        | cons o l ih =>
          intro A hT
          exact List.Pairwise.cons (sp k.toInv0 A o l hT).2 (ih (A ++ [o]) (by rw [hT]; simp))
      exact key S.sweepLine [] rfl
    · intro e he
      obtain ⟨k1, _, _, k4⟩ := k.step g he
      have l := least_of_pop g k.wf k.qlt he
      refine ⟨fun hl => ?_, fun hl => ?_⟩
      · obtain ⟨_, A, B, hT, _, i⟩ := k1.added g l rfl hl S.ok
        obtain ⟨a, b⟩ := sp i A e B rfl
        exact ⟨A, B, hT, a, b⟩
      · obtain ⟨A, B, hT⟩ := List.append_of_mem (k4 (by simp [hl])).1
        exact ⟨A, B, hT, sp k1.toInv0 A _ B hT⟩

/-- C34: events are processed in the order of their points. -/
theorem C34_order (h1 : NoOverlap first) (h2 : NoOverlap second) {n : ℕ} {S : Lin}
    (h : Reach first second n S) {e e' : ℕ} (he : S.popEvent = some e)
    (he' : (S.process e).popEvent = some e') : S.start e ≤ (S.process e).start e' := by
  obtain ⟨ε, g⟩ := exists_good h1 h2
  rcases reach_inv g h with ⟨hn, rfl, _⟩ | ⟨⟨p, k⟩, _⟩
  · obtain ⟨a, b⟩ := List.append_eq_nil_iff.mp hn
    subst a b
    cases he
  · obtain ⟨k1, k2, s, _⟩ := k.step g he
    have l := least_of_pop g k2.wf k2.qlt he'
    have := k2.qge e' l.mem
    exact (g.le_iff k1.pP (k2.wf.memP e' (k2.qlt e' l.mem))).mpr this

/-- C34: in every reachable state the subsegments refine the operands: opposite events are paired, left
with right; a left event starts at the lesser end; each subsegment lies in the segment of its
operand which it came from; the subsegments of a segment cover it, and subsegments of one operand share
at most one point. -/
theorem C34_refines (h1 : NoOverlap first) (h2 : NoOverlap second) {n : ℕ} {S : Lin}
    (h : Reach first second n S) :
    (∀ e < S.endpoints.length, S.opp e < S.endpoints.length ∧ S.opp (S.opp e) = e ∧
      isLeft (S.opp e) = !isLeft e) ∧
    (∀ e ∈ S.leftEvents, S.start e < S.end e ∧ S.sid e < (first ++ second).length ∧
      (S.isFirst e = true ↔ S.sid e < first.length)) ∧
    (∀ i (hi : i < (first ++ second).length), segPts (first ++ second)[i] =
      segsPts ((S.leftEvents.filter fun e => S.sid e = i).map S.piece)) ∧
    NoOverlap ((S.leftEvents.filter fun e => S.isFirst e).map S.piece) ∧
    NoOverlap ((S.leftEvents.filter fun e => !S.isFirst e).map S.piece) := by
  obtain ⟨ε, g⟩ := exists_good h1 h2
  have w := reach_wf g h
  have ap : ∀ e e', IsL S e → IsL S e' → e ≠ e' → SameOp (ctxOf first second ε) S e e' →
      Apart (S.piece e) (S.piece e') := by
    intro e e' he he' hee hop p hp q hq
    have p1 := (mem_piece w he p).mp hp.1
    have p2 := (mem_piece w he' p).mp hp.2
    have q1 := (mem_piece w he q).mp hq.1
    have q2 := (mem_piece w he' q).mp hq.2
    refine p1.1.eq_of_X q1.1 ?_
    by_contra hne
    have hc : CollE (ctxOf first second ε) S e e' := by
      refine Ctx.coll_of_two hne ?_ ?_
      · have := p1.1; have := p2.1; unfold Ctx.On at *; linarith
      · have := q1.1; have := q2.1; unfold Ctx.On at *; linarith
    rcases w.noOv e e' he he' hee hop hc with k | k
    · apply hne
      linarith [p1.2.2, p2.2.1, q1.2.2, q2.2.1]
    · apply hne
      linarith [p1.2.1, p2.2.2, q1.2.1, q2.2.2]
  have nd : S.leftEvents.Nodup := List.nodup_range.filter _
  have part : ∀ φ : ℕ → Bool, (∀ e e', IsL S e → IsL S e' → φ e = true → φ e' = true →
      SameOp (ctxOf first second ε) S e e') → NoOverlap ((S.leftEvents.filter φ).map S.piece) := by
    intro φ hφ
    constructor
    · intro s hs
      obtain ⟨e, he, rfl⟩ := List.mem_map.mp hs
      exact (start_le_end g w (mem_leftEvents.mp (List.mem_filter.mp he).1)).ne
    · rw [List.pairwise_map]
      refine List.Pairwise.imp_of_mem ?_ (nd.filter φ)
      intro a b ha hb hab
      rw [List.mem_filter, mem_leftEvents] at ha hb
      exact ap a b ha.1 hb.1 hab (hφ a b ha.1 hb.1 ha.2 hb.2)
  refine ⟨?_, ?_, ?_, part _ ?_, part _ ?_⟩
  · intro e he
    refine ⟨w.oppLt e he, w.oppOpp e he, ?_⟩
    have := w.oppPar e he
    unfold isLeft
    have e1 : e % 2 = 0 ∨ e % 2 = 1 := by omega
    have e2 : S.opp e % 2 = 0 ∨ S.opp e % 2 = 1 := by omega
    rcases e1 with e1 | e1 <;> rcases e2 with e2 | e2 <;> simp [e1, e2] <;> omega
  · intro e he
    rw [mem_leftEvents] at he
    exact ⟨start_le_end g w he, w.sidLt e he, isFirst_iff w he⟩
  · intro i hi'
    have es : (first ++ second)[i] = segAt (first ++ second) i := by
      unfold segAt; rw [List.getD_eq_getElem?_getD, List.getElem?_eq_getElem hi']; rfl
    rw [es]
    ext q
    rw [mem_segAt_iff g hi']
    constructor
    · rintro ⟨o, a, b⟩
      obtain ⟨e, he, hs, l, r⟩ := w.cover i hi' _ a b
      refine ⟨S.piece e, List.mem_map.mpr ⟨e, ?_, rfl⟩, (mem_piece w he q).mpr ⟨by rw [hs]; exact o, l, r⟩⟩
      rw [List.mem_filter, mem_leftEvents]
      exact ⟨he, by simpa using hs⟩
    · rintro ⟨s, hs, hq⟩
      obtain ⟨e, he, rfl⟩ := List.mem_map.mp hs
      rw [List.mem_filter, mem_leftEvents, decide_eq_true_eq] at he
      have a := (mem_piece w he.1 q).mp hq
      have ia := w.inA e he.1
      have ib := w.inB e he.1
      rw [he.2] at ia ib
      exact ⟨by rw [← he.2]; exact a.1, ia.trans a.2.1, a.2.2.trans ib⟩
  · intro e e' he he' k k'
    rw [isFirst_iff w he] at k
    rw [isFirst_iff w he'] at k'
    exact ⟨fun _ => k', fun _ => k⟩
  · intro e e' he he' k k'
    rw [Bool.not_eq_true', ← Bool.not_eq_true, isFirst_iff w he] at k
    rw [Bool.not_eq_true', ← Bool.not_eq_true, isFirst_iff w he'] at k'
    exact ⟨fun z => absurd z k, fun z => absurd z k'⟩

/-- C34: what the four reductions of the events compute for two lists of segments when the run is not
stopped: pieces of the operands which meet only at common ends, and whose points are the
regularised set operation. -/
theorem C34_run (h1 : NoOverlap first) (h2 : NoOverlap second) (op : LinOp) :
    FullyNoded (op.run (fun _ => false) first second) ∧
    (∀ s ∈ op.run (fun _ => false) first second, ∃ t ∈ first ++ second, segPts s ⊆ segPts t) ∧
    segsPts (op.run (fun _ => false) first second) =
      reg {q | op.holds (q ∈ segsPts first) (q ∈ segsPts second)} := by
  obtain ⟨k1, k2, F, k3, k4⟩ := run_spec h1 h2 op (stop := fun _ => false) (fun _ _ _ h => h)
  refine ⟨k1, k2, reg_eq_of_finite k1.1 F (fun p hp hF => k3 p hF hp) ?_⟩
  intro p hp hF
  have : ∃ s ∈ first ++ second, p ∈ segPts s := by
    have : p ∈ segsPts first ∨ p ∈ segsPts second := by
      have hp : op.holds (p ∈ segsPts first) (p ∈ segsPts second) := hp
      cases op with
      | intersection => exact Or.inl hp.1
      | union => exact hp
      | difference => exact Or.inl hp.1
      | symmetricDifference => exact hp.elim (fun h => Or.inl h.1) (fun h => Or.inr h.1)
    rcases this with ⟨s, hs, k⟩ | ⟨s, hs, k⟩
    · exact ⟨s, List.mem_append_left _ hs, k⟩
    · exact ⟨s, List.mem_append_right _ hs, k⟩
  obtain ⟨s, hs, k⟩ := this
  exact k4 p hF s hs k rfl hp

end

/-- Checking the hypothesis on concrete lists. -/
theorem noOverlap_of_empty {l : List Segment} (h : (∀ s ∈ l, s.start ≠ s.end) ∧
    l.Pairwise (fun s t => intersectSegmentWithSegment s t = .empty)) : NoOverlap l := by
  refine ⟨h.1, h.2.imp_of_mem ?_⟩
  intro s t hs ht e
  rcases C05_intersect s t (h.1 s hs) (h.1 t ht) with k | ⟨r, k, _⟩
  · exact k.2
  · rw [e] at k; cases k

/-! A crossing and a partial overlap: hypotheses and results. -/

section
private def exFirst : List Segment := [⟨⟨0, 0⟩, ⟨4, 4⟩⟩, ⟨⟨6, 0⟩, ⟨10, 0⟩⟩]
private def exSecond : List Segment := [⟨⟨0, 4⟩, ⟨4, 0⟩⟩, ⟨⟨8, 0⟩, ⟨12, 0⟩⟩]

example : NoOverlap exFirst ∧ NoOverlap exSecond :=
  ⟨noOverlap_of_empty (by decide +kernel), noOverlap_of_empty (by decide +kernel)⟩

example : ∃ S, Reach exFirst exSecond 1 S := ⟨_, Reach.step Reach.init (event := 0) (by decide +kernel)⟩

example : LinOp.union.run (fun _ => false) exFirst exSecond =
    [⟨⟨0, 0⟩, ⟨2, 2⟩⟩, ⟨⟨0, 4⟩, ⟨2, 2⟩⟩, ⟨⟨2, 2⟩, ⟨4, 0⟩⟩, ⟨⟨2, 2⟩, ⟨4, 4⟩⟩, ⟨⟨6, 0⟩, ⟨8, 0⟩⟩, ⟨⟨8, 0⟩, ⟨10, 0⟩⟩,
      ⟨⟨10, 0⟩, ⟨12, 0⟩⟩] := by decide +kernel

example : LinOp.intersection.run (fun _ => false) exFirst exSecond = [⟨⟨8, 0⟩, ⟨10, 0⟩⟩] ∧
    LinOp.difference.run (fun _ => false) exFirst exSecond =
      [⟨⟨0, 0⟩, ⟨2, 2⟩⟩, ⟨⟨2, 2⟩, ⟨4, 4⟩⟩, ⟨⟨6, 0⟩, ⟨8, 0⟩⟩] := by decide +kernel
end

end Rene
