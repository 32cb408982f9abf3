import Verif.Lemmas.Sweep.Order
import Mathlib.Data.List.Chain

/-! The full invariant, and moving on to the next event point. -/

namespace Rene.Sweep
open Rene Spec

variable {c : Ctx}

/-- The invariant between iterations. -/
structure Inv (c : Ctx) (S : Lin) (p : Point) : Prop extends Inv0 c S p where
  chain : S.sweepLine.IsChain (Checked c S)

/-- Neighbouring elements through the same value which differ in a property. -/
theorem walk {R : ℕ → ℕ → Prop} {φ : ℕ → ℚ} {w : ℚ} (Q : ℕ → Prop) :
    ∀ {l : List ℕ}, l.IsChain R → l.Pairwise (fun a b => φ a ≤ φ b) → ∀ {x y}, x ∈ l → y ∈ l → φ x = w →
    φ y = w → Q x → ¬ Q y → ∃ a ∈ l, ∃ b ∈ l, φ a = w ∧ φ b = w ∧ Q a ∧ ¬ Q b ∧ (R a b ∨ R b a) := by
  intro l
  induction l with
  | nil => intro _ _ x y hx; simp at hx
  | cons z l ih =>
    intro hR hp x y hx hy hxw hyw hqx hqy
    have up : ∀ {x y}, x ∈ l → y ∈ l → φ x = w → φ y = w → Q x → ¬ Q y → ∃ a ∈ z :: l, ∃ b ∈ z :: l,
        φ a = w ∧ φ b = w ∧ Q a ∧ ¬ Q b ∧ (R a b ∨ R b a) := by
      intro x y hx hy h1 h2 h3 h4
      obtain ⟨a, ha, b, hb, k⟩ := ih hR.tail hp.tail hx hy h1 h2 h3 h4
      exact ⟨a, List.mem_cons_of_mem _ ha, b, List.mem_cons_of_mem _ hb, k⟩
    rw [List.pairwise_cons] at hp
    rcases List.mem_cons.mp hx with rfl | hx'
    · rcases List.mem_cons.mp hy with rfl | hy'
      · exact absurd hqx hqy
      · cases l with
        | nil => simp at hy'
        | cons v l =>
          have hv : φ v = w := by
            have h1 := hp.1 v List.mem_cons_self
            have h2 : φ v ≤ φ y := by
              rcases List.mem_cons.mp hy' with rfl | h
              · exact le_refl _
              · exact (List.pairwise_cons.mp hp.2).1 y h
            linarith
          by_cases hq : Q v
          · exact up List.mem_cons_self hy' hv hyw hq hqy
          · exact ⟨x, List.mem_cons_self, v, by simp, hxw, hv, hqx, hq,
              Or.inl (List.isChain_cons_cons.mp hR).1⟩
    · rcases List.mem_cons.mp hy with rfl | hy'
      · cases l with
        | nil => simp at hx'
        | cons v l =>
          have hv : φ v = w := by
            have h1 := hp.1 v List.mem_cons_self
            have h2 : φ v ≤ φ x := by
              rcases List.mem_cons.mp hx' with rfl | h
              · exact le_refl _
              · exact (List.pairwise_cons.mp hp.2).1 x h
            linarith
          by_cases hq : Q v
          · exact ⟨v, by simp, y, List.mem_cons_self, hv, hyw, hq, hqy,
              Or.inr (List.isChain_cons_cons.mp hR).1⟩
          · exact up hx' List.mem_cons_self hxw hv hqx hq
      · exact up hx' hy' hxw hyw hqx hqy

section
variable {S : Lin} {p : Point}

theorem Inv0.sameOp {a b : ℕ} (h : Inv0 c S p) (ha : a ∈ S.sweepLine) (hb : b ∈ S.sweepLine) (hab : a ≠ b)
    (hc : CollE c S a b) : ¬ SameOp c S a b := by
  have : SLt c S a b ∨ SLt c S b a := by
    have hs : S.sweepLine.Pairwise (fun a b => SLt c S a b ∨ SLt c S b a) := h.sorted.imp Or.inl
    haveI : Std.Symm (fun a b => SLt c S a b ∨ SLt c S b a) := ⟨fun _ _ => Or.symm⟩
    exact hs.forall ha hb hab
  intro so
  unfold SameOp at so
  rcases this with (k | ⟨_, k1, k2⟩) | (k | ⟨_, k1, k2⟩)
  · exact aboveR_not_coll k hc
  · exact k2 (so.mp k1)
  · exact aboveR_not_coll k hc.symm
  · exact k2 (so.mpr k1)

/-- Neighbours have been tested and are ordered. -/
theorem Inv.chain' (h : Inv c S p) : S.sweepLine.IsChain (fun a b => Checked c S a b ∧ SLt c S a b) := by
  have h1 := h.chain
  have h2 := h.sorted.isChain
  revert h1 h2
  generalize S.sweepLine = l
  induction l with
  | nil => intro _ _; exact List.isChain_nil
  | cons a l ih =>
    cases l with
    | nil => intro _ _; exact List.isChain_singleton a
    | cons b l =>
      intro h1 h2
      rw [List.isChain_cons_cons] at *
      exact ⟨⟨h1.1, h2.1⟩, ih h1.2 h2.2⟩

/-- The order of the sweep line agrees with the order of the values at every abscissa where all its
elements are present. -/
theorem Inv.values (h : Inv c S p) {t : ℚ} (h1 : ∀ e ∈ S.sweepLine, lx c S e ≤ t)
    (h2 : ∀ e ∈ S.sweepLine, t ≤ rx c S e) :
    S.sweepLine.Pairwise (fun a b => c.f (S.sid a) t ≤ c.f (S.sid b) t) := by
  have hc := h.chain'
  have : S.sweepLine.IsChain (fun a b => c.f (S.sid a) t ≤ c.f (S.sid b) t) := by
    revert hc h1 h2
    generalize S.sweepLine = l
    intro h1 h2
    induction l with
    | nil => intro _; exact List.isChain_nil
    | cons a l ih =>
      cases l with
      | nil => intro _; exact List.isChain_singleton a
      | cons b l =>
        intro hc
        rw [List.isChain_cons_cons] at *
        exact ⟨adj_le hc.1.2 hc.1.1 (h1 a (by simp)) (h2 a (by simp)) (h1 b (by simp)) (h2 b (by simp)),
          ih (fun e he => h1 e (List.mem_cons_of_mem _ he)) (fun e he => h2 e (List.mem_cons_of_mem _ he)) hc.2⟩
  have tr : IsTrans ℕ (fun a b => c.f (S.sid a) t ≤ c.f (S.sid b) t) := ⟨fun _ _ _ => le_trans⟩
  exact List.isChain_iff_pairwise.mp this

/-- The walk principle on the sweep line. -/
theorem Inv.walk (h : Inv c S p) {t w : ℚ} (h1 : ∀ e ∈ S.sweepLine, lx c S e ≤ t)
    (h2 : ∀ e ∈ S.sweepLine, t ≤ rx c S e) (Q : ℕ → Prop) {x y : ℕ} (hx : x ∈ S.sweepLine)
    (hy : y ∈ S.sweepLine) (hxw : c.f (S.sid x) t = w) (hyw : c.f (S.sid y) t = w) (hqx : Q x) (hqy : ¬ Q y) :
    ∃ a ∈ S.sweepLine, ∃ b ∈ S.sweepLine, c.f (S.sid a) t = w ∧ c.f (S.sid b) t = w ∧ Q a ∧ ¬ Q b ∧
      Checked c S a b := by
  obtain ⟨a, ha, b, hb, k1, k2, k3, k4, k5⟩ :=
    Sweep.walk (φ := fun e => c.f (S.sid e) t) (w := w) Q h.chain (h.values h1 h2) hx hy hxw hyw hqx hqy
  exact ⟨a, ha, b, hb, k1, k2, k3, k4, k5.elim id Checked.symm⟩

theorem Inv0.mem_of (h : Inv0 c S p) {e : ℕ} (he : IsL S e) (h1 : e ∉ S.queue) (h2 : c.X p < rx c S e) :
    e ∈ S.sweepLine := by
  rw [h.tmem]
  refine ⟨he, h1, ?_⟩
  by_contra g
  have := h.ple _ (h.wf.oppLt e he.1) g
  exact absurd this (not_le.mpr h2)

/-- When all events at `p` have been processed, nothing passes through `p`. -/
theorem Inv.noPass (g : c.Good) (h : Inv c S p) (hq : ∀ e ∈ S.queue, c.X p < lx c S e) :
    ∀ e, IsL S e → c.On (S.sid e) p → ¬ Int c S e (c.X p) := by
  have hr : ∀ e ∈ S.sweepLine, c.X p < rx c S e := fun e he => hq _ ((h.tmem e).mp he).2.2
  rcases h.v with ⟨o, ho, k⟩ | k
  · intro e he hon hint
    have onq : ∀ {e}, lx c S e ≤ c.X p → e ∉ S.queue := fun h1 h2 => absurd (hq _ h2) (not_lt.mpr h1)
    have he' := h.mem_of he (onq hint.1.le) hint.2
    have ho' := h.mem_of ho (onq k.le) (by rw [← k]; exact h.wf.lr o ho)
    have hs : S.start o = p := (g.eq_iff (h.wf.memP o ho.1) h.pP).mpr k
    have hon2 : c.On (S.sid o) p := by rw [← hs]; exact h.wf.onL o ho
    obtain ⟨a, ha, b, hb, k1, k2, k3, k4, k5⟩ := h.walk (t := c.X p) (w := p.y) (fun e he => h.lx_le he)
      (fun e he => (hr e he).le) (fun e => lx c S e = c.X p) ho' he' hon2.symm hon.symm k (by
        intro z; have := hint.1; linarith)
    have ib : Int c S b (c.X p) := ⟨lt_of_le_of_ne (h.lx_le hb) k4, hr b hb⟩
    by_cases hc : CollE c S a b
    · rcases k5.1 hc with (z | z) | ⟨z, _⟩
      · have := hr a ha; have := ib.1; linarith
      · have := hr b hb; linarith
      · exact k4 (z ▸ k3)
    · exact (k5.2 hc (c.X p) (k1.trans k2.symm) (h.lx_le ha) (hr a ha).le (h.lx_le hb) (hr b hb).le).2 ib
  · exact k

/-- Moving on to the next event point. -/
theorem Inv.advance (g : c.Good) (h : Inv c S p) {e0 : ℕ} (he0 : e0 ∈ S.queue)
    (hmin : ∀ e ∈ S.queue, lx c S e0 ≤ lx c S e) (hlt : c.X p < lx c S e0) : Inv c S (S.start e0) := by
  have hP : S.start e0 ∈ c.P := h.wf.memP e0 (h.qlt e0 he0)
  have hX : c.X (S.start e0) = lx c S e0 := rfl
  have hq : ∀ e ∈ S.queue, c.X p < lx c S e := fun e he => lt_of_lt_of_le hlt (hmin e he)
  have onq : ∀ {e}, lx c S e < lx c S e0 → e ∉ S.queue := fun h1 h2 => absurd (hmin _ h2) (not_le.mpr h1)
  have hr : ∀ e ∈ S.sweepLine, lx c S e0 ≤ rx c S e := fun e he => hmin _ ((h.tmem e).mp he).2.2
  have nev : ∀ e < cnt S, ¬ (c.X p < lx c S e ∧ lx c S e < lx c S e0) := by
    intro e he hh
    exact absurd (h.ple e he (onq hh.2)) (not_le.mpr hh.1)
  have np := h.noPass g hq
  refine ⟨⟨h.wf, hP, h.qlt, h.qnd, hmin, ?_, h.tmem, h.tnd, ?_, h.sorted, ?_, ?_⟩, h.chain⟩
  · intro e he hne; rw [hX]; exact (h.ple e he hne).trans hlt.le
  · intro q hqP hqp e he hon hint
    rw [hX] at hqp
    rcases lt_trichotomy (c.X q) (c.X p) with k | k | k
    · exact h.noInt q hqP k e he hon hint
    · have : q = p := (g.eq_iff hqP h.pP).mpr k
      subst this; exact np e he hon hint
    · rcases g.cases q hqP with ⟨i, hi, hh⟩ | ⟨i, hi, j, hj, hc, o1, o2, r1, r2⟩
      · have := h.wf.big
        rcases hh with rfl | rfl
        · exact nev (2 * i) (by omega) ⟨by unfold lx; rw [h.wf.initA i hi]; exact k,
            by unfold lx; rw [h.wf.initA i hi]; exact hqp⟩
        · exact nev (2 * i + 1) (by omega) ⟨by unfold lx; rw [h.wf.initB i hi]; exact k,
            by unfold lx; rw [h.wf.initB i hi]; exact hqp⟩
      · have key : ∀ i < c.N, c.X (c.A i) ≤ c.X q ∧ c.X q ≤ c.X (c.B i) →
            ∃ e ∈ S.sweepLine, S.sid e = i ∧ Int c S e (c.X q) := by
          intro i hi hr'
          obtain ⟨e, he, hs, k1, k2⟩ := h.wf.cover i hi _ hr'.1 hr'.2
          have i1 : lx c S e < c.X q := by
            refine lt_of_le_of_ne k1 fun z => nev e he.1 ⟨by rw [z]; exact k, by rw [z]; exact hqp⟩
          have i2 : c.X q < rx c S e := by
            refine lt_of_le_of_ne k2 fun z => nev (S.opp e) (h.wf.oppLt e he.1) ⟨?_, ?_⟩
            · show c.X p < rx c S e
              rw [← z]; exact k
            · show rx c S e < lx c S e0
              rw [← z]; exact hqp
          exact ⟨e, h.mem_of he (onq (i1.trans hqp)) (k.trans i2), hs, i1, i2⟩
        obtain ⟨e1, he1, s1, i1⟩ := key i hi r1
        obtain ⟨e2, he2, s2, i2⟩ := key j hj r2
        have hl : ∀ e ∈ S.sweepLine, lx c S e < c.X q := fun e he => lt_of_le_of_lt (h.lx_le he) k
        have hr2 : ∀ e ∈ S.sweepLine, c.X q < rx c S e := fun e he => lt_of_lt_of_le hqp (hr e he)
        obtain ⟨a, ha, b, hb, k1, k2, k3, k4, k5⟩ := h.walk (t := c.X q) (w := q.y) (fun e he => (hl e he).le)
          (fun e he => (hr2 e he).le) (fun e => c.Coll i (S.sid e)) he1 he2 (by rw [s1]; exact o1.symm)
          (by rw [s2]; exact o2.symm) (by rw [s1]; exact Ctx.Coll.refl i) (by rw [s2]; exact hc)
        have hnc : ¬ CollE c S a b := fun z => k4 (k3.trans z)
        exact (k5.2 hnc _ (k1.trans k2.symm) (hl a ha).le (hr2 a ha).le (hl b hb).le (hr2 b hb).le).1
          ⟨hl a ha, hr2 a ha⟩
  · by_cases hv : ∃ e, IsL S e ∧ lx c S e = c.X (S.start e0)
    · left; exact hv
    · right
      intro e he hon hint
      rw [hX] at hint hv
      have ho : IsL S (S.opp e0) := by
        refine ⟨h.wf.oppLt e0 (h.qlt e0 he0), ?_⟩
        have h1 := h.wf.oppPar e0 (h.qlt e0 he0)
        by_contra z
        exact hv ⟨e0, ⟨h.qlt e0 he0, by omega⟩, rfl⟩
      have hend : S.end (S.opp e0) = S.start e0 := by
        unfold Lin.end; rw [h.wf.oppOpp e0 (h.qlt e0 he0)]
      have hro : rx c S (S.opp e0) = lx c S e0 := by unfold rx; rw [hend]; rfl
      have hlo := h.wf.lr _ ho
      rw [hro] at hlo
      have hoT : S.opp e0 ∈ S.sweepLine := h.mem_of ho (onq hlo) (by rw [hro]; exact hlt)
      have hono : c.On (S.sid (S.opp e0)) (S.start e0) := by rw [← hend]; exact h.wf.onR _ ho
      have heT : e ∈ S.sweepLine := h.mem_of he (onq hint.1) (hlt.trans hint.2)
      have hl : ∀ e ∈ S.sweepLine, lx c S e < lx c S e0 := fun e he => lt_of_le_of_lt (h.lx_le he) hlt
      obtain ⟨a, ha, b, hb, k1, k2, k3, k4, k5⟩ := h.walk (t := lx c S e0) (w := (S.start e0).y)
        (fun e he => (hl e he).le) hr (fun e => rx c S e = lx c S e0) hoT heT hono.symm hon.symm hro
        (fun z => by have := hint.2; linarith)
      have ib : Int c S b (lx c S e0) := ⟨hl b hb, lt_of_le_of_ne (hr b hb) (fun z => k4 z.symm)⟩
      by_cases hc : CollE c S a b
      · rcases k5.1 hc with (z | z) | ⟨_, z | ⟨y, hy, z, _⟩⟩
        · have := hl b hb; linarith
        · have := hl a ha; have := hr b hb; linarith
        · exact k4 (z ▸ k3)
        · refine hv ⟨y, hy, ?_⟩
          rw [z, k3, min_eq_left ib.2.le]
      · exact (k5.2 hc _ (k1.trans k2.symm) (hl a ha).le (hr a ha) (hl b hb).le (hr b hb)).2 ib
  · intro x hx hxq hxr
    have := h.ple _ (h.wf.oppLt x hx.1) hxq
    have e : lx c S (S.opp x) = rx c S x := rfl
    rw [e, hxr, hX] at this
    linarith

end
end Rene.Sweep
