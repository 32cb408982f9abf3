import Verif.Lemmas.Sweep.Left

/-! The whole loop. -/

namespace Rene.Sweep
open Rene Spec

variable {c : Ctx}

/-- The collected events so far. -/
structure Acc (c : Ctx) (S : Lin) (acc : List ℕ) : Prop where
  nd : acc.Nodup
  mem : ∀ x, x ∈ acc ↔ IsL S x ∧ S.opp x ∉ S.queue
  sorted : acc.Pairwise fun x y => rx c S x < rx c S y ∨ (rx c S x = rx c S y ∧ c.K (S.sid y) ≤ c.K (S.sid x))

/-- What the loop establishes. -/
structure Final (c : Ctx) (stop : Point → Bool) (S : Lin) (acc : List ℕ) : Prop where
  wf : Wf c S
  nd : acc.Nodup
  mem : ∀ x, x ∈ acc ↔ IsL S x ∧ stop (S.end x) = false
  sorted : acc.Pairwise fun x y => rx c S x < rx c S y ∨ (rx c S x = rx c S y ∧ c.K (S.sid y) ≤ c.K (S.sid x))
  noInt : ∀ q ∈ c.P, stop q = false → ∀ e, IsL S e → c.On (S.sid e) q → ¬ Int c S e (c.X q)

/-- One iteration, with the advance to the point of the popped event. -/
theorem Inv.step (g : c.Good) {S : Lin} {p : Point} (h : Inv c S p) {e : ℕ} (hpop : S.popEvent = some e) :
    Inv c S (S.start e) ∧ Inv c (S.process e) (S.start e) ∧ Step c S (S.process e) e ∧
    (¬ isLeft e = true → S.opp e ∈ S.sweepLine ∧ (S.process e).opp (S.opp e) = e) := by
  have l := least_of_pop g h.wf h.qlt hpop
  have he := h.qlt e l.mem
  have h1 : Inv c S (S.start e) := by
    rcases eq_or_lt_of_le (h.qge e l.mem) with k | k
    · have : p = S.start e := (g.eq_iff h.pP (h.wf.memP e he)).mpr k
      rw [← this]; exact h
    · exact h.advance g l.mem l.le k
  refine ⟨h1, ?_⟩
  by_cases hl : isLeft e = true
  · obtain ⟨k1, k2⟩ := h1.left g l rfl hl
    exact ⟨k1, k2, fun z => absurd hl z⟩
  · obtain ⟨k1, k2, k3, k4⟩ := h1.right g l rfl hl
    exact ⟨k1, k2, fun _ => ⟨k3, k4⟩⟩

section
variable {S : Lin} {p : Point} {e : ℕ} {acc : List ℕ}

/-- Which right events have been popped after an iteration. -/
theorem popped_iff (h : Inv c S p) (h' : Inv c (S.process e) p) (s : Step c S (S.process e) e)
    (hq : e ∈ S.queue) (hr : ¬ isLeft e = true → (S.process e).opp (S.opp e) = e) (x : ℕ) :
    (IsL (S.process e) x ∧ (S.process e).opp x ∉ (S.process e).queue) ↔
      (IsL S x ∧ S.opp x ∉ S.queue) ∨ (x = S.opp e ∧ ¬ isLeft e = true) := by
  have he := h.qlt e hq
  have old : ∀ {x}, IsL S x → S.opp x ∉ S.queue → x ∉ S.sweepLine ∧ x ∉ S.queue := by
    intro x hx hxq
    refine ⟨fun z => hxq ((h.tmem x).mp z).2.2, fun z => ?_⟩
    have k1 := h.ple _ (h.wf.oppLt x hx.1) hxq
    have k2 := h.qge x z
    have k3 := h.wf.lr x hx
    have : lx c S (S.opp x) = rx c S x := rfl
    linarith
  constructor
  · rintro ⟨hx, hxq⟩
    by_cases hc : x < cnt S
    · have hxL : IsL S x := ⟨hc, hx.2⟩
      rcases s.oppOr x hxL with k | k
      · rw [k] at hxq
        by_cases hxe : S.opp x = e
        · right
          have : x = S.opp e := by rw [← hxe, h.wf.oppOpp x hc]
          refine ⟨this, fun z => ?_⟩
          have := h.wf.oppPar x hc
          rw [hxe, hx.2] at this
          exact this (isLeft_iff.mp z)
        · left
          exact ⟨hxL, fun z => hxq ((s.queue _ (h.wf.oppLt x hc) hxe).mpr z)⟩
      · exact absurd (s.new _ (h'.wf.oppLt x hx.1) k) hxq
    · exfalso
      have k1 := h'.qge x (s.new x hx.1 (not_lt.mp hc))
      have k2 := h'.wf.lr x hx
      have k3 := h'.ple _ (h'.wf.oppLt x hx.1) hxq
      have : lx c (S.process e) ((S.process e).opp x) = rx c (S.process e) x := rfl
      linarith
  · rintro (⟨hx, hxq⟩ | ⟨rfl, hl⟩)
    · obtain ⟨k1, k2⟩ := old hx hxq
      refine ⟨⟨lt_of_lt_of_le hx.1 s.cnt, hx.2⟩, ?_⟩
      rw [s.keep x hx k1 k2, s.queue _ (h.wf.oppLt x hx.1) (fun z => hxq (z ▸ hq))]
      exact hxq
    · have := h.wf.toLeft he
      rw [toLeft_right hl] at this
      refine ⟨⟨lt_of_lt_of_le this.1 s.cnt, this.2⟩, ?_⟩
      rw [hr hl]
      exact s.gone

/-- The popped pieces do not change. -/
theorem popped_same (h : Inv c S p) (s : Step c S (S.process e) e)
    {x : ℕ} (hx : IsL S x) (hxq : S.opp x ∉ S.queue) :
    rx c (S.process e) x = rx c S x ∧ (S.process e).sid x = S.sid x := by
  have k1 : x ∉ S.sweepLine := fun z => hxq ((h.tmem x).mp z).2.2
  have k2 : x ∉ S.queue := by
    intro z
    have k1 := h.ple _ (h.wf.oppLt x hx.1) hxq
    have k2 := h.qge x z
    have k3 := h.wf.lr x hx
    have : lx c S (S.opp x) = rx c S x := rfl
    linarith
  refine ⟨?_, s.sid x hx.1⟩
  unfold rx Lin.end
  rw [s.keep x hx k1 k2, s.start _ (h.wf.oppLt x hx.1)]

theorem Acc.left (h : Inv c S p) (h' : Inv c (S.process e) p) (s : Step c S (S.process e) e)
    (hq : e ∈ S.queue) (hl : isLeft e = true) (a : Acc c S acc) : Acc c (S.process e) acc := by
  refine ⟨a.nd, fun x => ?_, ?_⟩
  · rw [popped_iff h h' s hq (fun z => absurd hl z), a.mem]
    constructor
    · exact Or.inl
    · rintro (k | k)
      · exact k
      · exact absurd hl k.2
  · refine List.Pairwise.imp_of_mem ?_ a.sorted
    intro x y hx hy hxy
    obtain ⟨x1, x2⟩ := (a.mem x).mp hx
    obtain ⟨y1, y2⟩ := (a.mem y).mp hy
    obtain ⟨e1, e2⟩ := popped_same h s x1 x2
    obtain ⟨e3, e4⟩ := popped_same h s y1 y2
    rw [e1, e2, e3, e4]
    exact hxy

theorem Acc.right (g : c.Good) (h : Inv c S p) (h' : Inv c (S.process e) p) (s : Step c S (S.process e) e)
    (hq : e ∈ S.queue) (hp : S.start e = p) (hl : ¬ isLeft e = true) (ho : S.opp e ∈ S.sweepLine)
    (hr : (S.process e).opp (S.opp e) = e) (a : Acc c S acc) :
    (S.process e).opp e = S.opp e ∧ Acc c (S.process e) (acc ++ [S.opp e]) := by
  have he := h.qlt e hq
  have hoL := h.isL ho
  have hoL' : IsL (S.process e) (S.opp e) := ⟨lt_of_lt_of_le hoL.1 s.cnt, hoL.2⟩
  have e1 : (S.process e).opp e = S.opp e := by
    have := h'.wf.oppOpp _ hoL'.1
    rw [hr] at this
    exact this
  have oo := h.wf.oppOpp e he
  have ee : S.end (S.opp e) = p := by unfold Lin.end; rw [oo, hp]
  have hrx : rx c (S.process e) (S.opp e) = c.X p := by
    unfold rx Lin.end; rw [hr, s.start e he, hp]
  refine ⟨e1, ?_, fun x => ?_, ?_⟩
  · rw [List.nodup_append]
    refine ⟨a.nd, by simp, fun x hx y hy => ?_⟩
    rw [List.mem_singleton] at hy
    subst hy
    rintro rfl
    exact ((a.mem _).mp hx).2 ((h.tmem _).mp ho).2.2
  · rw [popped_iff h h' s hq (fun _ => hr), ← a.mem, List.mem_append, List.mem_singleton]
    constructor
    · rintro (k | k)
      · exact Or.inl k
      · exact Or.inr ⟨k, hl⟩
    · rintro (k | k)
      · exact Or.inl k
      · exact Or.inr k.1
  · rw [List.pairwise_append]
    refine ⟨?_, by simp, fun x hx y hy => ?_⟩
    · refine List.Pairwise.imp_of_mem ?_ a.sorted
      intro x y hx hy hxy
      obtain ⟨x1, x2⟩ := (a.mem x).mp hx
      obtain ⟨y1, y2⟩ := (a.mem y).mp hy
      obtain ⟨e1, e2⟩ := popped_same h s x1 x2
      obtain ⟨e3, e4⟩ := popped_same h s y1 y2
      rw [e1, e2, e3, e4]
      exact hxy
    · rw [List.mem_singleton] at hy
      subst hy
      obtain ⟨x1, x2⟩ := (a.mem x).mp hx
      obtain ⟨e1, e2⟩ := popped_same h s x1 x2
      rw [e1, e2, hrx, s.sid _ hoL.1]
      have k1 := h.ple _ (h.wf.oppLt x x1.1) x2
      have k2 : lx c S (S.opp x) = rx c S x := rfl
      rw [k2] at k1
      rcases eq_or_lt_of_le k1 with k | k
      · right
        refine ⟨k, h.mono x x1 x2 k _ ho ?_ ?_⟩
        · have := h.wf.lr _ hoL
          unfold rx at this
          rw [ee] at this
          exact this
        · rw [← ee]; exact h.wf.onR _ hoL
      · left; exact k

end

theorem loop_spec (g : c.Good) {stop : Point → Bool}
    (hs : ∀ p ∈ c.P, ∀ q ∈ c.P, c.X p ≤ c.X q → stop p = true → stop q = true) :
    ∀ (fuel : ℕ) (S : Lin) (p : Point) (acc : List ℕ), Inv c S p → Acc c S acc → meas c S < fuel →
    (∀ x ∈ acc, stop (S.end x) = false) →
    Final c stop (S.loop stop fuel acc).1 (S.loop stop fuel acc).2 ∧ (S.loop stop fuel acc).1.ok = S.ok := by
  intro fuel
  induction fuel with
  | zero => intro S p acc _ _ hf; omega
  | succ fuel ih =>
    intro S p acc h a hf hns
    unfold Lin.loop
    cases hpop : S.popEvent with
    | none =>
      have hq := popEvent_none hpop
      simp only
      refine ⟨⟨h.wf, a.nd, fun x => ?_, a.sorted, fun q hqP hqs e he hon hint => ?_⟩, trivial⟩
      · constructor
        · intro hx
          exact ⟨((a.mem x).mp hx).1, hns x hx⟩
        · intro hx
          exact (a.mem x).mpr ⟨hx.1, by rw [hq]; simp⟩
      · have hnq : ∀ e ∈ S.queue, c.X p < lx c S e := by rw [hq]; simp
        rcases lt_trichotomy (c.X q) (c.X p) with k | k | k
        · exact h.noInt q hqP k e he hon hint
        · have : q = p := (g.eq_iff hqP h.pP).mpr k
          subst this
          exact h.noPass g hnq e he hon hint
        · have := h.ple _ (h.wf.oppLt e he.1) (by rw [hq]; simp)
          have e1 : lx c S (S.opp e) = rx c S e := rfl
          have := hint.2
          linarith
    | some e =>
      simp only
      obtain ⟨h1, h2, s, hr⟩ := h.step g hpop
      have l := least_of_pop g h.wf h.qlt hpop
      have he := h.qlt e l.mem
      have ep := h.wf.memP e he
      have est : (S.process e).start e = S.start e := s.start e he
      -- ends of popped pieces are not beyond the current point
      have hend : ∀ x, IsL S x → S.opp x ∉ S.queue → (S.process e).end x = S.end x := by
        intro x hx hxq
        have k1 : x ∉ S.sweepLine := fun z => hxq ((h.tmem x).mp z).2.2
        have k2 : x ∉ S.queue := by
          intro z
          have k1 := h.ple _ (h.wf.oppLt x hx.1) hxq
          have k2 := h.qge x z
          have k3 := h.wf.lr x hx
          have : lx c S (S.opp x) = rx c S x := rfl
          linarith
        unfold Lin.end
        rw [s.keep x hx k1 k2, s.start _ (h.wf.oppLt x hx.1)]
      rw [est]
      by_cases hst : stop (S.start e) = true
      · rw [if_pos hst]
        refine ⟨⟨h2.wf, a.nd, fun x => ?_, ?_, fun q hqP hqs x hx hon hint => ?_⟩, s.ok⟩
        · constructor
          · intro hx
            obtain ⟨k1, k2⟩ := (a.mem x).mp hx
            refine ⟨⟨lt_of_lt_of_le k1.1 s.cnt, k1.2⟩, ?_⟩
            simp only
            rw [hend x k1 k2]
            exact hns x hx
          · rintro ⟨hx, hxs⟩
            have hnot : (S.process e).opp x ∉ (S.process e).queue := by
              intro z
              have := h2.qge _ z
              have := hs _ ep _ (h2.wf.memP _ (h2.wf.oppLt x hx.1)) this hst
              unfold Lin.end at hxs
              rw [this] at hxs
              exact absurd hxs (by simp)
            rcases (popped_iff h1 h2 s l.mem (fun z => (hr z).2) x).mp ⟨hx, hnot⟩ with k | ⟨rfl, k⟩
            · exact (a.mem x).mpr k
            · exfalso
              unfold Lin.end at hxs
              rw [(hr k).2, est, hst] at hxs
              exact absurd hxs (by simp)
        · refine List.Pairwise.imp_of_mem ?_ a.sorted
          intro x y hx hy hxy
          obtain ⟨x1, x2⟩ := (a.mem x).mp hx
          obtain ⟨y1, y2⟩ := (a.mem y).mp hy
          obtain ⟨e1, e2⟩ := popped_same h s x1 x2
          obtain ⟨e3, e4⟩ := popped_same h s y1 y2
          simp only
          rw [e1, e2, e3, e4]
          exact hxy
        · have : c.X q < c.X (S.start e) := by
            by_contra z
            have := hs _ ep q hqP (not_lt.mp z) hst
            rw [this] at hqs
            exact absurd hqs (by simp)
          exact h2.noInt q hqP this x hx hon hint
      · rw [if_neg hst]
        have hst' : stop (S.start e) = false := Bool.eq_false_iff.mpr hst
        have hm := s.meas
        by_cases hl : isLeft e = true
        · rw [if_pos hl]
          obtain ⟨k1, k2⟩ := ih (S.process e) _ acc h2 (Acc.left h1 h2 s l.mem hl a) (by omega) (fun x hx => by
            obtain ⟨x1, x2⟩ := (a.mem x).mp hx
            rw [hend x x1 x2]; exact hns x hx)
          exact ⟨k1, k2.trans s.ok⟩
        · rw [if_neg hl]
          obtain ⟨ho, hoe⟩ := hr hl
          obtain ⟨e1, a'⟩ := Acc.right g h1 h2 s l.mem rfl hl ho hoe a
          rw [e1]
          obtain ⟨k1, k2⟩ := ih (S.process e) _ (acc ++ [S.opp e]) h2 a' (by omega) (fun x hx => by
            rcases List.mem_append.mp hx with hx | hx
            · obtain ⟨x1, x2⟩ := (a.mem x).mp hx
              rw [hend x x1 x2]; exact hns x hx
            · rw [List.mem_singleton] at hx
              subst hx
              unfold Lin.end
              rw [hoe, est]; exact hst')
          exact ⟨k1, k2.trans s.ok⟩

/-- More iterations change nothing. -/
theorem loop_more (g : c.Good) (stop : Point → Bool) :
    ∀ (fuel : ℕ) (S : Lin) (p : Point) (acc : List ℕ), Inv c S p → meas c S < fuel → ∀ k,
    S.loop stop (fuel + k) acc = S.loop stop fuel acc := by
  intro fuel
  induction fuel with
  | zero => intro S p acc _ hf; omega
  | succ fuel ih =>
    intro S p acc h hf k
    have e : fuel + 1 + k = (fuel + k) + 1 := by omega
    rw [e]
    unfold Lin.loop
    cases hpop : S.popEvent with
    | none => rfl
    | some e =>
      simp only
      obtain ⟨_, h2, s, _⟩ := h.step g hpop
      have hm := s.meas
      rw [ih (S.process e) _ acc h2 (by omega) k, ih (S.process e) _ _ h2 (by omega) k]

/-- Without a stopping condition all events are processed. -/
theorem loop_empties (g : c.Good) :
    ∀ (fuel : ℕ) (S : Lin) (p : Point) (acc : List ℕ), Inv c S p → meas c S < fuel →
    (S.loop (fun _ => false) fuel acc).1.queue = [] := by
  intro fuel
  induction fuel with
  | zero => intro S p acc _ hf; omega
  | succ fuel ih =>
    intro S p acc h hf
    unfold Lin.loop
    cases hpop : S.popEvent with
    | none => exact popEvent_none hpop
    | some e =>
      simp only [Bool.false_eq_true, if_false]
      obtain ⟨_, h2, s, _⟩ := h.step g hpop
      have hm := s.meas
      by_cases hl : isLeft e = true
      · rw [if_pos hl]; exact ih _ _ _ h2 (by omega)
      · rw [if_neg hl]; exact ih _ _ _ h2 (by omega)

end Rene.Sweep
