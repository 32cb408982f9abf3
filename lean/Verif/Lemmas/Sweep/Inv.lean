import Verif.Lemmas.Sweep.State

/-! The invariant of the sweep (without the adjacency condition) and its preservation by divisions. -/

namespace Rene.Sweep
open Rene Spec

variable {c : Ctx}

/-- Line `j` is above line `i` immediately to the right of `m`. -/
def AboveR (c : Ctx) (i j : ℕ) (m : ℚ) : Prop := c.f i m < c.f j m ∨ (c.f i m = c.f j m ∧ c.K i < c.K j)

/-- Order of two left events on the sweep line. -/
def SLt (c : Ctx) (S : Lin) (a b : ℕ) : Prop :=
  AboveR c (S.sid a) (S.sid b) (max (lx c S a) (lx c S b)) ∨
    (CollE c S a b ∧ S.sid a < c.F ∧ ¬ S.sid b < c.F)

/-- The point at abscissa `t` is inside (not at an end of) the piece. -/
def Int (c : Ctx) (S : Lin) (e : ℕ) (t : ℚ) : Prop := lx c S e < t ∧ t < rx c S e

structure Inv0 (c : Ctx) (S : Lin) (p : Point) : Prop where
  wf : Wf c S
  pP : p ∈ c.P
  qlt : ∀ e ∈ S.queue, e < cnt S
  qnd : S.queue.Nodup
  qge : ∀ e ∈ S.queue, c.X p ≤ lx c S e
  ple : ∀ e < cnt S, e ∉ S.queue → lx c S e ≤ c.X p
  tmem : ∀ e, e ∈ S.sweepLine ↔ IsL S e ∧ e ∉ S.queue ∧ S.opp e ∈ S.queue
  tnd : S.sweepLine.Nodup
  noInt : ∀ q ∈ c.P, c.X q < c.X p → ∀ e, IsL S e → c.On (S.sid e) q → ¬ Int c S e (c.X q)
  sorted : S.sweepLine.Pairwise (SLt c S)
  v : (∃ e, IsL S e ∧ lx c S e = c.X p) ∨ ∀ e, IsL S e → c.On (S.sid e) p → ¬ Int c S e (c.X p)
  mono : ∀ x, IsL S x → S.opp x ∉ S.queue → rx c S x = c.X p → ∀ y ∈ S.sweepLine, lx c S y < c.X p →
    c.On (S.sid y) p → c.K (S.sid y) ≤ c.K (S.sid x)

theorem Inv0.isL {S : Lin} {p : Point} (h : Inv0 c S p) {e : ℕ} (he : e ∈ S.sweepLine) : IsL S e :=
  ((h.tmem e).mp he).1

theorem Inv0.lx_le {S : Lin} {p : Point} (h : Inv0 c S p) {e : ℕ} (he : e ∈ S.sweepLine) :
    lx c S e ≤ c.X p := h.ple e (h.isL he).1 ((h.tmem e).mp he).2.1

theorem Inv0.le_rx {S : Lin} {p : Point} (h : Inv0 c S p) {e : ℕ} (he : e ∈ S.sweepLine) :
    c.X p ≤ rx c S e := h.qge _ ((h.tmem e).mp he).2.2

theorem Inv0.div {S S' : Lin} {p : Point} (h : Inv0 c S p) {e : ℕ} {m : Point} (he : e ∈ S.sweepLine)
    (hm : m ∈ c.P) (hon : c.On (S.sid e) m) (hi : Int c S e (c.X m)) (d : Divided S S' e m) :
    Inv0 c S' p ∧ Ext c S S' := by
  have hL := h.isL he
  obtain ⟨w, x⟩ := h.wf.div hL hm hon hi.1 hi.2 d h.qlt he
  refine ⟨?_, x⟩
  have pm : c.X p ≤ c.X m := by
    by_contra g
    exact h.noInt m hm (not_le.mp g) e hL hon hi
  have ho := h.wf.oppLt e hL.1
  have oe := ((h.tmem e).mp he).2.2
  have ev := h.wf.even
  have hq : ∀ y, y ∈ S'.queue ↔ y = cnt S ∨ y = cnt S + 1 ∨ y ∈ S.queue := by
    intro y; rw [d.queue]; simp only [List.mem_cons]
  have n0 : cnt S ∉ S.queue := fun g => lt_irrefl _ (h.qlt _ g)
  have n1 : cnt S + 1 ∉ S.queue := fun g => by have := h.qlt _ g; omega
  have oppL : ∀ {y}, IsL S y → y ≠ e → S'.opp y = S.opp y := by
    intro y hy hye
    refine d.opp_old y hy.1 hye ?_
    rintro rfl
    exact h.wf.oppPar e hL.1 (hy.2.trans hL.2.symm)
  have rxo : ∀ {y}, IsL S y → y ≠ e → rx c S' y = rx c S y := fun hy hye => by
    unfold rx; rw [h.wf.div_rx hL d hy hye]
  have sub : ∀ {y}, IsL S' y → ∃ z, IsL S z ∧ S'.sid y = S.sid z ∧ ∀ t, Int c S' y t → Int c S z t := by
    intro y hy
    rcases d.isL_cases ev hy with g | rfl
    · refine ⟨y, g, d.sid_old y g.1, fun t ht => ?_⟩
      exact ⟨by rw [← Wf.div_lx d g.1]; exact ht.1, lt_of_lt_of_le ht.2 (x.rx y g)⟩
    · refine ⟨e, hL, d.sid_new, fun t ht => ⟨?_, ?_⟩⟩
      · have := ht.1
        have k : lx c S' (cnt S) = c.X m := by unfold lx; rw [d.start_new]
        rw [k] at this
        exact hi.1.trans this
      · have := ht.2
        have k : rx c S' (cnt S) = rx c S e := by unfold rx; rw [d.end_new ho]
        rwa [k] at this
  constructor
  · exact w
  · exact h.pP
  · intro y hy
    rw [hq] at hy; rw [d.cnt]
    rcases hy with rfl | rfl | hy
    · omega
    · omega
    · have := h.qlt y hy; omega
  · rw [d.queue]
    refine List.nodup_cons.mpr ⟨?_, List.nodup_cons.mpr ⟨n1, h.qnd⟩⟩
    simp only [List.mem_cons, not_or]
    exact ⟨by omega, n0⟩
  · intro y hy
    rw [hq] at hy
    rcases hy with rfl | rfl | hy
    · unfold lx; rw [d.start_new]; exact pm
    · unfold lx; rw [d.start_new']; exact pm
    · rw [Wf.div_lx d (h.qlt y hy)]; exact h.qge y hy
  · intro y hy hyq
    rw [hq, not_or, not_or] at hyq
    rw [d.cnt] at hy
    have hy' : y < cnt S := by omega
    rw [Wf.div_lx d hy']
    exact h.ple y hy' hyq.2.2
  · intro y
    rw [d.sweepLine, h.tmem, hq, hq]
    constructor
    · rintro ⟨k1, k2, k3⟩
      refine ⟨d.isL k1, ?_, ?_⟩
      · rw [not_or, not_or]
        have := k1.1
        exact ⟨by omega, by omega, k2⟩
      · by_cases hye : y = e
        · subst hye; right; left; exact d.opp_e
        · rw [oppL k1 hye]; exact Or.inr (Or.inr k3)
    · rintro ⟨k1, k2, k3⟩
      rw [not_or, not_or] at k2
      rcases d.isL_cases ev k1 with g | g
      · refine ⟨g, k2.2.2, ?_⟩
        by_cases hye : y = e
        · subst hye; exact oe
        · rw [oppL g hye] at k3
          have := h.wf.oppLt y g.1
          rcases k3 with k3 | k3 | k3
          · omega
          · omega
          · exact k3
      · exact absurd g k2.1
  · rw [d.sweepLine]; exact h.tnd
  · intro q hqP hqp y hy hony hint
    obtain ⟨z, hz, hs, hint'⟩ := sub hy
    rw [hs] at hony
    exact h.noInt q hqP hqp z hz hony (hint' _ hint)
  · rw [d.sweepLine]
    refine h.sorted.imp_of_mem ?_
    intro a b ha hb hab
    have la := (h.isL ha).1
    have lb := (h.isL hb).1
    unfold SLt CollE at *
    rw [d.sid_old a la, d.sid_old b lb, Wf.div_lx d la, Wf.div_lx d lb]
    exact hab
  · rcases h.v with ⟨y, hy, k⟩ | k
    · left; exact ⟨y, d.isL hy, by rw [Wf.div_lx d hy.1]; exact k⟩
    · right
      intro y hy hony hint
      obtain ⟨z, hz, hs, hint'⟩ := sub hy
      rw [hs] at hony
      exact k z hz hony (hint' _ hint)
  · intro y hy hyq hyr z hz hzp hon'
    rw [d.sweepLine] at hz
    have hz' := h.isL hz
    rw [d.sid_old z hz'.1] at hon' ⊢
    rw [Wf.div_lx d hz'.1] at hzp
    rw [hq, not_or, not_or] at hyq
    rcases d.isL_cases ev hy with g | rfl
    · by_cases hye : y = e
      · subst hye; exact absurd d.opp_e hyq.2.1
      · rw [oppL g hye] at hyq
        rw [rxo g hye] at hyr
        rw [d.sid_old y g.1]
        exact h.mono y g hyq.2.2 hyr z hz hzp hon'
    · rw [d.opp_new] at hyq
      exact absurd oe hyq.2.2

/-- What the intersection test establishes for two neighbours. -/
def Checked (c : Ctx) (S : Lin) (a b : ℕ) : Prop :=
  (CollE c S a b → (rx c S a ≤ lx c S b ∨ rx c S b ≤ lx c S a) ∨
    (lx c S a = lx c S b ∧ (rx c S a = rx c S b ∨ ∃ y, IsL S y ∧ lx c S y = min (rx c S a) (rx c S b) ∧
      (S.sid y = S.sid a ∨ S.sid y = S.sid b)))) ∧
  (¬ CollE c S a b → ∀ t, c.f (S.sid a) t = c.f (S.sid b) t → lx c S a ≤ t → t ≤ rx c S a →
    lx c S b ≤ t → t ≤ rx c S b → ¬ Int c S a t ∧ ¬ Int c S b t)

theorem Checked.symm {S : Lin} {a b : ℕ} (h : Checked c S a b) : Checked c S b a := by
  refine ⟨fun hc => ?_, fun hc t ht k1 k2 k3 k4 => ?_⟩
  · rcases h.1 hc.symm with k | ⟨k1, k2⟩
    · left; exact k.symm
    · right; refine ⟨k1.symm, ?_⟩
      rcases k2 with k | ⟨y, hy, k, k'⟩
      · exact Or.inl k.symm
      · exact Or.inr ⟨y, hy, by rw [min_comm]; exact k, k'.symm⟩
  · exact (h.2 (fun g => hc g.symm) t ht.symm k3 k4 k1 k2).symm

theorem Checked.ext {S S' : Lin} {a b : ℕ} (h : Checked c S a b) (x : Ext c S S') (ha : IsL S a)
    (hb : IsL S b) : Checked c S' a b := by
  have la := x.lx (c := c) ha.1
  have lb := x.lx (c := c) hb.1
  have ra := x.rx a ha
  have rb := x.rx b hb
  have ce : CollE c S' a b ↔ CollE c S a b := by
    unfold CollE; rw [x.sid a ha.1, x.sid b hb.1]
  refine ⟨fun hc => ?_, fun hc t ht k1 k2 k3 k4 => ?_⟩
  · rw [ce] at hc
    rw [la, lb]
    rcases h.1 hc with (k | k) | ⟨k, k'⟩
    · left; left; linarith
    · left; right; linarith
    · right
      refine ⟨k, ?_⟩
      rcases lt_trichotomy (rx c S' a) (rx c S' b) with g | g | g
      · right
        rw [min_eq_left g.le]
        by_cases e : rx c S' a = rx c S a
        · rcases k' with k' | ⟨y, hy, k', k2⟩
          · exfalso; linarith
          · refine ⟨y, x.isL hy, ?_, ?_⟩
            · rw [x.lx hy.1, k', min_eq_left (by linarith), e]
            · rw [x.sid y hy.1, x.sid a ha.1, x.sid b hb.1]; exact k2
        · obtain ⟨y, k1, k2, k3⟩ := x.new a ha e
          exact ⟨y, k1, k2, Or.inl (by rw [k3, x.sid a ha.1])⟩
      · exact Or.inl g
      · right
        rw [min_eq_right g.le]
        by_cases e : rx c S' b = rx c S b
        · rcases k' with k' | ⟨y, hy, k', k2⟩
          · exfalso; linarith
          · refine ⟨y, x.isL hy, ?_, ?_⟩
            · rw [x.lx hy.1, k', min_eq_right (by linarith), e]
            · rw [x.sid y hy.1, x.sid a ha.1, x.sid b hb.1]; exact k2
        · obtain ⟨y, k1, k2, k3⟩ := x.new b hb e
          exact ⟨y, k1, k2, Or.inr (by rw [k3, x.sid b hb.1])⟩
  · rw [ce] at hc
    rw [x.sid a ha.1, x.sid b hb.1] at ht
    rw [la] at k1
    rw [lb] at k3
    obtain ⟨n1, n2⟩ := h.2 hc t ht k1 (k2.trans ra) k3 (k4.trans rb)
    refine ⟨fun g => n1 ⟨?_, lt_of_lt_of_le g.2 ra⟩, fun g => n2 ⟨?_, lt_of_lt_of_le g.2 rb⟩⟩
    · rw [← la]; exact g.1
    · rw [← lb]; exact g.1

end Rene.Sweep
