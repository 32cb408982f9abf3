import Verif.Lemmas.Sweep.RelUpdate

/-! The loop of the relation of linear geometries. -/

namespace Rene.Sweep
open Rene Spec

variable {c : Ctx} {S : Lin} {p : Point} {group : List ℕ}

/-- The state of the relation when the given points have been seen. -/
structure RSt (c : Ctx) (V : Point → Prop) (s0 st : RelationState) : Prop where
  sub : ∀ b, Sweep.sub st b = true ↔ Sweep.sub s0 b = true ∧ ∀ q ∈ c.P, V q → LocalCov c b q
  ov : st.hasOverlap = true ↔ ∃ q ∈ c.P, V q ∧ OverAt c q
  int : st.hasIntersection = true ↔ ∃ q ∈ c.P, V q ∧ InOp c true q ∧ InOp c false q
  ok : st.ok = true
  cr : st.hasCrossing = true → st.hasIntersection = true

theorem RSt.congr {V W : Point → Prop} {s0 st : RelationState} (h : RSt c V s0 st)
    (hv : ∀ q ∈ c.P, V q ↔ W q) : RSt c W s0 st := by
  refine ⟨fun b => ?_, ?_, ?_, h.ok, h.cr⟩
  · rw [h.sub]
    exact and_congr_right fun _ => forall₂_congr fun q hq => by rw [hv q hq]
  · rw [h.ov]
    exact exists_congr fun q => and_congr_right fun hq => by rw [hv q hq]
  · rw [h.int]
    exact exists_congr fun q => and_congr_right fun hq => by rw [hv q hq]

theorem update_cr {st : RelationState} (h : st.hasCrossing = true → st.hasIntersection = true) :
    (st.update S group).hasCrossing = true → (st.update S group).hasIntersection = true := by
  unfold RelationState.update
  by_cases hi : S.hasIntersection group = true
  · rw [if_pos hi]
    intro _
    rw [(detectCrossing_same S _ group).2.2.2]
    unfold RelationState.detectTouchOrOverlap
    have : ∀ (l : List (Point × List ℕ)) (s : RelationState), s.hasIntersection = true →
        (l.foldl (fun state g => RelationState.detectGroup S state g.2) s).hasIntersection = true := by
      intro l
      induction l with
      | nil => intro s hs; exact hs
      | cons a l ih =>
        intro s hs
        refine ih _ ?_
        unfold RelationState.detectGroup
        beta_reduce
        split
        · exact hs
        · split <;> exact hs
        · exact hs
    exact this _ _ rfl
  · rw [if_neg hi]
    split
    · exact h
    · split <;> exact h

theorem RSt.update {s0 st : RelationState} (g : c.Good) (hn : Nod c)
    (h : RSt c (fun q => c.X q < c.X p) s0 st) (d : Done c S p group) :
    RSt c (fun q => c.X q ≤ c.X p) s0 (st.update S group) := by
  obtain ⟨u1, u2, u3, u4⟩ := d.update g hn st
  have pP := d.inv.pP
  have key : ∀ q ∈ c.P, c.X q ≤ c.X p ↔ c.X q < c.X p ∨ q = p := by
    intro q hq
    rw [le_iff_lt_or_eq, g.eq_iff hq pP]
  refine ⟨fun b => ?_, ?_, ?_, u4.trans h.ok, update_cr h.cr⟩
  · rw [u1, h.sub, and_assoc]
    refine and_congr_right fun _ => ⟨fun ⟨k1, k2⟩ q hq hqp => ?_, fun k => ⟨fun q hq hqp => k q hq hqp.le, k p pP le_rfl⟩⟩
    rcases (key q hq).mp hqp with z | rfl
    · exact k1 q hq z
    · exact k2
  · rw [u2, h.ov]
    constructor
    · rintro (⟨q, hq, k1, k2⟩ | k)
      · exact ⟨q, hq, k1.le, k2⟩
      · exact ⟨p, pP, le_rfl, k⟩
    · rintro ⟨q, hq, k1, k2⟩
      rcases (key q hq).mp k1 with z | rfl
      · exact Or.inl ⟨q, hq, z, k2⟩
      · exact Or.inr k2
  · rw [u3, h.int]
    constructor
    · rintro (⟨q, hq, k1, k2⟩ | k)
      · exact ⟨q, hq, k1.le, k2⟩
      · exact ⟨p, pP, le_rfl, k⟩
    · rintro ⟨q, hq, k1, k2⟩
      rcases (key q hq).mp k1 with z | rfl
      · exact Or.inl ⟨q, hq, z, k2⟩
      · exact Or.inr k2

/-- What the final state says about the operands. -/
structure RelFin (c : Ctx) (s0 st : RelationState) : Prop where
  ok : st.ok = true
  cr : st.hasCrossing = true → st.hasIntersection = true
  sub : ∀ b, Sweep.sub st b = true → Sweep.sub s0 b = true ∧ ∀ q, InOp c b q → InOp c (!b) q
  out : ∀ b, Sweep.sub st b = false → Sweep.sub s0 b = false ∨ ∃ q, InOp c b q ∧ ¬ InOp c (!b) q
  ov : st.hasOverlap = true ↔ ∃ q ∈ c.P, OverAt c q
  int : st.hasIntersection = true ↔ ∃ q ∈ c.P, InOp c true q ∧ InOp c false q

/-- The points of a covered operand. -/
theorem cov_all (g : c.Good) {b : Bool} (h : ∀ q ∈ c.P, LocalCov c b q) : ∀ q, InOp c b q → InOp c (!b) q := by
  classical
  rintro q ⟨i, hi, si, on, h1, h2⟩
  rcases eq_or_lt_of_le h1 with k | k
  · have : q = c.A i := Ctx.On.eq_of_X on (g.onA i hi) k.symm
    subst this
    exact (h _ (g.memA i hi)).1 ⟨i, hi, si, on, le_rfl, h2⟩
  -- the last point before
  let T := c.P.filter fun r => c.On i r ∧ c.X (c.A i) ≤ c.X r ∧ c.X r < c.X q
  have hT : T.Nonempty := ⟨c.A i, by
    simp only [T, Finset.mem_filter]
    exact ⟨g.memA i hi, g.onA i hi, le_rfl, k⟩⟩
  obtain ⟨r, hr, hmax⟩ := T.exists_max_image c.X hT
  simp only [T, Finset.mem_filter] at hr hmax
  obtain ⟨rP, ron, r1, r2⟩ := hr
  obtain ⟨j, hj, sj, hc, sp⟩ := (h r rP).2 i hi si ron ⟨r1, lt_of_lt_of_le r2 h2⟩
  refine ⟨j, hj, sj, Ctx.On.coll hc on, sp.1.trans r2.le, ?_⟩
  by_contra hlt
  have := hmax (c.B j) ⟨g.memB j hj, Ctx.On.coll hc.symm (g.onB j hj), r1.trans sp.2.le, not_le.mp hlt⟩
  exact absurd sp.2 (not_lt.mpr this)

/-- An uncovered point. -/
theorem not_cov (g : c.Good) {b : Bool} {q : Point} (hq : q ∈ c.P) (h : ¬ LocalCov c b q) :
    ∃ w, InOp c b w ∧ ¬ InOp c (!b) w := by
  classical
  unfold LocalCov at h
  rw [not_and_or] at h
  rcases h with h | h
  · rw [Classical.not_imp] at h; exact ⟨q, h⟩
  · push Not at h
    obtain ⟨i, hi, si, on, sp, hno⟩ := h
    let T := c.P.filter fun r => c.X q < c.X r
    have hT : T.Nonempty := ⟨c.B i, by
      simp only [T, Finset.mem_filter]
      exact ⟨g.memB i hi, sp.2⟩⟩
    obtain ⟨r, hr, hmin⟩ := T.exists_min_image c.X hT
    simp only [T, Finset.mem_filter] at hr hmin
    obtain ⟨rP, r1⟩ := hr
    have hB := hmin _ ⟨g.memB i hi, sp.2⟩
    have gap : ∀ u ∈ c.P, c.X u < (c.X q + c.X r) / 2 + 0 → c.X u ≤ c.X q := by
      intro u hu h1
      by_contra k
      have := hmin u ⟨hu, not_le.mp k⟩
      linarith
    have sA := sp.1
    refine ⟨at' c i ((c.X q + c.X r) / 2), ⟨i, hi, si, at'_on, by rw [at'_X]; linarith, by rw [at'_X]; linarith⟩, ?_⟩
    rintro ⟨j, hj, sj, onj, k1, k2⟩
    rw [at'_X] at k1 k2
    by_cases hc : c.Coll i j
    · refine hno j hj sj hc ⟨?_, by linarith⟩
      by_contra z
      have := hmin _ ⟨g.memA j hj, not_le.mp z⟩
      linarith
    · have hm := g.cross i hi j hj hc _ at'_on onj (by rw [at'_X]; linarith) (by rw [at'_X]; linarith)
        (by rw [at'_X]; exact k1) (by rw [at'_X]; exact k2)
      have := hmin _ ⟨hm, by rw [at'_X]; linarith⟩
      rw [at'_X] at this
      linarith

/-- All points have been seen. -/
theorem RSt.final {V : Point → Prop} {s0 st : RelationState} (g : c.Good) (h : RSt c V s0 st)
    (hv : ∀ q ∈ c.P, V q) : RelFin c s0 st := by
  refine ⟨h.ok, h.cr, fun b hb => ?_, fun b hb => ?_, ?_, ?_⟩
  · obtain ⟨k1, k2⟩ := (h.sub b).mp hb
    exact ⟨k1, cov_all g fun q hq => k2 q hq (hv q hq)⟩
  · by_cases k : Sweep.sub s0 b = true
    · right
      have : ¬ ∀ q ∈ c.P, V q → LocalCov c b q := fun z => by
        have := (h.sub b).mpr ⟨k, z⟩
        rw [hb] at this; exact absurd this (by decide)
      push Not at this
      obtain ⟨q, hq, -, k2⟩ := this
      exact not_cov g hq k2
    · left; simpa using k
  · rw [h.ov]; exact exists_congr fun q => and_congr_right fun hq => by simp [hv q hq]
  · rw [h.int]; exact exists_congr fun q => and_congr_right fun hq => by simp [hv q hq]

/-- Relevant points are on segments. -/
theorem mem_on (g : c.Good) {q : Point} (hq : q ∈ c.P) :
    ∃ i < c.N, c.On i q ∧ c.X (c.A i) ≤ c.X q ∧ c.X q ≤ c.X (c.B i) := by
  rcases g.cases q hq with ⟨i, hi, rfl | rfl⟩ | ⟨i, hi, j, hj, -, on, -, r1, -⟩
  · exact ⟨i, hi, g.onA i hi, le_rfl, (g.lt i hi).le⟩
  · exact ⟨i, hi, g.onB i hi, (g.lt i hi).le, le_rfl⟩
  · exact ⟨i, hi, on, r1.1, r1.2⟩

/-- No relevant points between consecutive event points. -/
theorem Done.between (g : c.Good) (h : Done c S p group) {e : ℕ} (hpop : S.popEvent = some e) {q : Point}
    (hq : q ∈ c.P) : c.X q < c.X (S.start e) ↔ c.X q ≤ c.X p := by
  have w := h.inv.wf
  have l := least_of_pop g w h.inv.qlt hpop
  have hlt := h.hq e l.mem
  constructor
  · intro k
    by_contra z
    have z := not_le.mp z
    obtain ⟨h1, -⟩ := h.inv.step g hpop
    obtain ⟨i, hi, on, k1, k2⟩ := mem_on g hq
    obtain ⟨x, hx, rfl, k3, k4⟩ := w.cover i hi _ k1 k2
    have nev : ∀ e' < cnt S, lx c S e' ≠ c.X q := by
      intro e' he' hh
      by_cases y : e' ∈ S.queue
      · have := l.le e' y
        unfold lx at this hh
        linarith
      · have := h.inv.ple e' he' y
        linarith
    refine h1.noInt q hq k x hx on ⟨lt_of_le_of_ne k3 (nev x hx.1), lt_of_le_of_ne k4 fun y => ?_⟩
    exact nev (S.opp x) (w.oppLt x hx.1) y.symm
  · intro k
    have : lx c S e = c.X (S.start e) := rfl
    linarith

/-- The queue is empty. -/
theorem Done.last (g : c.Good) (h : Done c S p group) (hpop : S.queue = []) {q : Point} (hq : q ∈ c.P) :
    c.X q ≤ c.X p := by
  obtain ⟨i, hi, on, k1, k2⟩ := mem_on g hq
  obtain ⟨x, hx, rfl, k3, k4⟩ := h.inv.wf.cover i hi _ k1 k2
  have := h.inv.ple (S.opp x) (h.inv.wf.oppLt x hx.1) (by rw [hpop]; simp)
  have e0 : lx c S (S.opp x) = rx c S x := rfl
  linarith

theorem sub_set (st : RelationState) (f b : Bool) :
    sub (if f then { st with firstIsSubset := false } else { st with secondIsSubset := false }) b =
      if b = f then false else sub st b := by
  cases f <;> cases b <;> rfl

theorem fields_set (st : RelationState) (f : Bool) :
    let r := (if f then { st with firstIsSubset := false } else { st with secondIsSubset := false })
    r.hasOverlap = st.hasOverlap ∧ r.hasIntersection = st.hasIntersection ∧ r.ok = st.ok ∧
      r.hasCrossing = st.hasCrossing := by
  cases f <;> exact ⟨rfl, rfl, rfl, rfl⟩

/-- The loop of `to_relation`: one operand (`b0`) is not beyond the limit. -/
theorem relateLoop_spec (g : c.Good) (hn : Nod c) {m : ℚ} {b0 : Bool} {s0 : RelationState}
    (hm : ∀ q, InOp c b0 q → q.x ≤ m) :
    ∀ (fuel : ℕ) (S : Lin) (st : RelationState) (p : Point) (group : List ℕ), GInv c S p group → group ≠ [] →
    RSt c (fun q => c.X q < c.X p) s0 st → meas c S < fuel →
    RelFin c s0 (S.relateLoop m fuel st p group).2 ∧ (S.relateLoop m fuel st p group).1.ok = S.ok := by
  intro fuel
  induction fuel with
  | zero => intro S st p group _ _ _ hf; omega
  | succ fuel ih =>
    intro S st p group h hne r hf
    unfold Lin.relateLoop
    cases hpop : S.popEvent with
    | none =>
      have hq := popEvent_none hpop
      have d : Done c S p group := ⟨h, by rw [hq]; simp, hne⟩
      simp only
      exact ⟨(r.update g hn d).final g fun q hq' => d.last g hq hq', trivial⟩
    | some e =>
      simp only
      have w := h.inv.wf
      have l := least_of_pop g w h.inv.qlt hpop
      have he := h.inv.qlt e l.mem
      have hqok : S.queueOk = true := w.queueOk h.inv.qlt
      by_cases hp : S.start e = p
      · rw [if_pos hp]
        obtain ⟨h1, s⟩ := h.step g hpop hp
        have := s.meas
        obtain ⟨i1, i2⟩ := ih (S.process e) st p (group ++ [e]) h1 (by simp) r (by omega)
        exact ⟨i1, i2.trans s.ok⟩
      · rw [if_neg hp]
        have hle := h.inv.qge e l.mem
        have hlt : c.X p < lx c S e := by
          refine lt_of_le_of_ne hle fun z => hp ?_
          exact ((g.eq_iff h.inv.pP (w.memP e he)).mpr z).symm
        have d : Done c S p group := ⟨h, fun y hy => lt_of_lt_of_le hlt (l.le y hy), hne⟩
        have r' := r.update g hn d
        by_cases hb : ((st.update S group).hasOverlap && !(st.update S group).firstIsSubset &&
            !(st.update S group).secondIsSubset) = true
        · rw [if_pos hb]
          simp only [Bool.and_eq_true, Bool.not_eq_true'] at hb
          obtain ⟨⟨b1, b2⟩, b3⟩ := hb
          refine ⟨⟨r'.ok, r'.cr, fun b hb' => ?_, fun b hb' => ?_, ?_, ?_⟩, by simp [hqok]⟩
          · exfalso
            unfold sub at hb'
            cases b
            · simp only [Bool.false_eq_true, if_false] at hb'; rw [b3] at hb'; exact absurd hb' (by decide)
            · simp only [if_true] at hb'; rw [b2] at hb'; exact absurd hb' (by decide)
          · by_cases k : sub s0 b = true
            · right
              have : ¬ ∀ q ∈ c.P, c.X q ≤ c.X p → LocalCov c b q := fun z => by
                have := (r'.sub b).mpr ⟨k, z⟩
                rw [hb'] at this; exact absurd this (by decide)
              push Not at this
              obtain ⟨q, hq, -, k2⟩ := this
              exact not_cov g hq k2
            · left; simpa using k
          · obtain ⟨q, hq, -, k⟩ := r'.ov.mp b1
            exact iff_of_true b1 ⟨q, hq, k⟩
          · obtain ⟨q, hq, k0, i, hi, j, hj, si, sj, on, hc, p1, p2⟩ := r'.ov.mp b1
            have : InOp c true q ∧ InOp c false q :=
              ⟨⟨i, hi, si, on, p1.1, p1.2.le⟩, j, hj, sj, Ctx.On.coll hc on, p2.1, p2.2.le⟩
            exact iff_of_true (r'.int.mpr ⟨q, hq, k0, this⟩) ⟨q, hq, this⟩
        · rw [if_neg hb]
          by_cases hx : (S.start e).x > m
          · rw [if_pos hx]
            obtain ⟨f1, f2, f3, f4⟩ := fields_set (st.update S group) (S.isFirst e)
            -- the operand of the event
            have hon : InOp c (S.isFirst e) (S.start e) := by
              have hL := w.toLeft he
              have hs := (isFirst_eq w (x := e) (b := S.isFirst e)).mp rfl
              refine ⟨_, w.sidLt _ hL, hs, ?_⟩
              have ia := w.inA _ hL
              have ib := w.inB _ hL
              have lr := w.lr _ hL
              by_cases hl : isLeft e = true
              · rw [toLeft_left hl] at *
                have e1 : lx c S e = c.X (S.start e) := rfl
                exact ⟨w.onL e hL, by linarith, by linarith⟩
              · rw [toLeft_right hl] at *
                have := w.onR _ hL
                have e0 : S.end (S.opp e) = S.start e := by unfold Lin.end; rw [w.oppOpp e he]
                rw [e0] at this
                have e1 : rx c S (S.opp e) = c.X (S.start e) := by unfold rx; rw [e0]
                exact ⟨this, by linarith, by linarith⟩
            have hb0 : S.isFirst e = !b0 := by
              by_contra z
              have z' : S.isFirst e = b0 := by
                have := Bool.eq_not_of_ne z
                rwa [Bool.not_not] at this
              rw [z'] at hon
              exact absurd hx (not_lt.mpr (hm _ hon))
            have seen : ∀ q ∈ c.P, InOp c b0 q → c.X q ≤ c.X p := by
              intro q hq hi
              rw [← d.between g hpop hq, ← g.lt_iff hq (w.memP e he)]
              exact Point.lt_iff.mpr (Or.inl (lt_of_le_of_lt (hm q hi) hx))
            have inb : ∀ {q}, InOp c true q ∧ InOp c false q → InOp c b0 q := by
              intro q k; cases b0; exact k.2; exact k.1
            have inOv : ∀ {q}, OverAt c q → InOp c b0 q := by
              rintro q ⟨i, hi, j, hj, si, sj, on, hc, p1, p2⟩
              exact inb ⟨⟨i, hi, si, on, p1.1, p1.2.le⟩, j, hj, sj, Ctx.On.coll hc on, p2.1, p2.2.le⟩
            refine ⟨⟨f3.trans r'.ok, by rw [f4, f2]; exact r'.cr, fun b hb' => ?_, fun b hb' => ?_, ?_, ?_⟩, by simp [hqok]⟩
            · rw [sub_set] at hb'
              by_cases k : b = S.isFirst e
              · rw [if_pos k] at hb'; exact absurd hb' (by decide)
              · rw [if_neg k] at hb'
                have hbb : b = b0 := by
                  rw [hb0] at k
                  revert k; cases b <;> cases b0 <;> decide
                subst hbb
                obtain ⟨k1, k2⟩ := (r'.sub _).mp hb'
                refine ⟨k1, cov_all g fun q hq => ?_⟩
                by_cases z : InOp c b q
                · exact k2 q hq (seen q hq z)
                · exact ⟨fun y => absurd y z, fun i hi si on sp => absurd ⟨i, hi, si, on, sp.1, sp.2.le⟩ z⟩
            · rw [sub_set] at hb'
              by_cases k : b = S.isFirst e
              · right
                subst k
                refine ⟨S.start e, hon, fun z => ?_⟩
                rw [hb0, Bool.not_not] at z
                exact absurd hx (not_lt.mpr (hm _ z))
              · rw [if_neg k] at hb'
                by_cases k : sub s0 b = true
                · right
                  have : ¬ ∀ q ∈ c.P, c.X q ≤ c.X p → LocalCov c b q := fun z => by
                    have := (r'.sub b).mpr ⟨k, z⟩
                    rw [hb'] at this; exact absurd this (by decide)
                  push Not at this
                  obtain ⟨q, hq, -, k2⟩ := this
                  exact not_cov g hq k2
                · left; simpa using k
            · show _ ↔ _
              refine (Iff.of_eq (congrArg (· = true) f1)).trans (r'.ov.trans ?_)
              exact exists_congr fun q => and_congr_right fun hq => ⟨fun k => k.2, fun k => ⟨seen q hq (inOv k), k⟩⟩
            · refine (Iff.of_eq (congrArg (· = true) f2)).trans (r'.int.trans ?_)
              exact exists_congr fun q => and_congr_right fun hq => ⟨fun k => k.2, fun k => ⟨seen q hq (inb k), k⟩⟩
          · rw [if_neg hx]
            obtain ⟨h1, -⟩ := h.inv.step g hpop
            have gn : GInv c S (S.start e) [] := by
              refine GInv.new h1 fun x hx hxq => ?_
              have := h.inv.ple x hx hxq
              have e0 : lx c S e = c.X (S.start e) := rfl
              linarith
            obtain ⟨h2, s⟩ := gn.step g hpop rfl
            have := s.meas
            obtain ⟨i1, i2⟩ := ih (S.process e) (st.update S group) (S.start e) [e] h2 (by simp)
              (r'.congr fun q hq => (d.between g hpop hq).symm) (by omega)
            exact ⟨i1, i2.trans s.ok⟩

end Rene.Sweep
