import Verif.Lemmas.BO.Proc
import Verif.Lemmas.Sweep.Left

/-! The invariant of the validity sweep before the first bad contact. -/

namespace Rene.BO
open Rene Spec Sweep

variable {c : Ctx} {β : ℚ} {R R' : Reg} {p : Point} {ids : List ℕ}

/-- Order of two left events on the sweep line. -/
def Ab (c : Ctx) (S : Lin) (a b : ℕ) : Prop := AboveR c (S.sid a) (S.sid b) (max (lx c S a) (lx c S b))

theorem Ab.not_coll {S : Lin} {a b : ℕ} (h : Ab c S a b) : ¬ CollE c S a b := aboveR_not_coll h

theorem Ab.asymm {S : Lin} {a b : ℕ} (h : Ab c S a b) : ¬ Ab c S b a := by
  intro k
  unfold Ab at *
  rw [max_comm] at k
  exact aboveR_asymm h k

/-- No two segments which come from the left meet at the abscissa `t` unless both of them end there. -/
def Nab (c : Ctx) (t : ℚ) : Prop := ∀ i < c.N, ∀ j < c.N, i ≠ j → c.X (c.A i) < t → t < c.X (c.B i) →
  c.X (c.A j) < t → t ≤ c.X (c.B j) → c.f i t ≠ c.f j t

/-- The part of the invariant which holds between the intersection tests. -/
structure Core (c : Ctx) (β : ℚ) (R : Reg) (p : Point) : Prop where
  new : ∀ e < cnt R.lin, 2 * c.N ≤ e → β < lx c R.lin e
  opp : ∀ i < c.N, R.lin.opp (2 * i) = 2 * i + 1 ∨ 2 * c.N ≤ R.lin.opp (2 * i)
  ple : ∀ e < 2 * c.N, e ∉ R.lin.queue → lx c R.lin e ≤ c.X p
  tmem : ∀ e, e ∈ R.lin.sweepLine ↔ (e < 2 * c.N ∧ e % 2 = 0) ∧ e ∉ R.lin.queue ∧ e + 1 ∈ R.lin.queue
  tnd : R.lin.sweepLine.Nodup
  sorted : R.lin.sweepLine.Pairwise (Ab c R.lin)
  rl : (∃ e < 2 * c.N, e % 2 = 0 ∧ e ∉ R.lin.queue ∧ lx c R.lin e = c.X p) →
    ∀ x ∈ R.lin.queue, x % 2 = 1 → c.X p < lx c R.lin x

/-- The invariant while nothing bad has been found. -/
structure Clean (c : Ctx) (β : ℚ) (R : Reg) (p : Point) : Prop extends Core c β R p where
  chain : R.lin.sweepLine.IsChain (Ck c R.lin)
  nab : Nab c (c.X p)
  v : (∀ x ∈ R.lin.sweepLine, lx c R.lin x < c.X p) ∨
    ∀ x ∈ R.lin.sweepLine, c.f (R.lin.sid x) (c.X p) = p.y → ¬ Int c R.lin x (c.X p)

theorem keyLt_eq {l r l' r' : Point} (h : ¬ (orient l r l' = orient l r r' ∧ orient l r l' = .collinear)) :
    keyLt l r l' r' = sweepKeyLt l r l' r' true true := by
  unfold keyLt sweepKeyLt
  simp only
  by_cases h12 : orient l r l' = orient l r r'
  · rw [if_pos h12, if_pos h12]
    have : orient l r l' ≠ .collinear := fun k => h ⟨h12, k⟩
    rw [if_pos this, if_pos this]
  · rw [if_neg h12, if_neg h12]

theorem lt_iff {Z : Reg} (w : WfB c Z.lin) {x y : ℕ} (hx : IsL Z.lin x) (hy : IsL Z.lin y)
    (h1 : lx c Z.lin x ≤ rx c Z.lin y) (h2 : lx c Z.lin y ≤ rx c Z.lin x) (hc : ¬ CollE c Z.lin x y) :
    Z.lt x y = true ↔ Ab c Z.lin x y := by
  have := sweepKeyLt_iff (x := true) (y := true) (w.onL x hx) (w.onR x hx) (w.onL y hy) (w.onR y hy) (w.lr x hx) (w.lr y hy)
    h1 h2 (fun k => absurd k hc)
  unfold Reg.lt
  rw [keyLt_eq]
  · refine this.trans ?_
    unfold Ab lx
    constructor
    · rintro (k | ⟨k, _⟩)
      · exact k
      · exact absurd k hc
    · exact Or.inl
  · rintro ⟨k1, k2⟩
    obtain ⟨_, _, s3⟩ := Ctx.orient_on (q := Z.lin.start y) (w.onL x hx) (w.onR x hx) (w.lr x hx)
    obtain ⟨_, _, e3⟩ := Ctx.orient_on (q := Z.lin.end y) (w.onL x hx) (w.onR x hx) (w.lr x hx)
    have a1 := s3.mp k2
    have a2 := e3.mp (k1 ▸ k2)
    have b1 := w.onL y hy
    have b2 := w.onR y hy
    unfold Ctx.On at b1 b2
    exact hc (Ctx.coll_of_two (w.lr y hy).ne (by unfold lx; rw [← a1, ← b1]) (by unfold rx; rw [← a2, ← b2]))

/-- The order of a strictly ordered pair in any state where both are present. -/
theorem lt_of_ab {Z : Reg} (w : WfB c Z.lin) {x y : ℕ} (hx : IsL Z.lin x) (hy : IsL Z.lin y)
    (h1 : lx c Z.lin x ≤ rx c Z.lin y) (h2 : lx c Z.lin y ≤ rx c Z.lin x) (h : Ab c Z.lin x y) :
    Z.lt x y = true ∧ Z.lt y x = false := by
  refine ⟨(lt_iff w hx hy h1 h2 h.not_coll).mpr h, ?_⟩
  rw [Bool.eq_false_iff]
  intro k
  exact h.asymm ((lt_iff w hy hx h2 h1 (fun k => h.not_coll k.symm)).mp k)

theorem Ck.le {S : Lin} {a b : ℕ} (hk : Ck c S a b) (h : Ab c S a b) {t : ℚ} (h1 : lx c S a ≤ t)
    (h2 : t ≤ rx c S a) (h3 : lx c S b ≤ t) (h4 : t ≤ rx c S b) : c.f (S.sid a) t ≤ c.f (S.sid b) t :=
  adj_le (Or.inl h) ⟨fun k => absurd k h.not_coll, fun _ => hk⟩ h1 h2 h3 h4

theorem Ck.symm {S : Lin} {a b : ℕ} (hk : Ck c S a b) : Ck c S b a :=
  fun t ht k1 k2 k3 k4 => (hk t ht.symm k3 k4 k1 k2).symm

theorem chain_and {A B : ℕ → ℕ → Prop} {l : List ℕ} (h1 : l.IsChain A) (h2 : l.IsChain B) :
    l.IsChain (fun a b => A a b ∧ B a b) := by
  induction l with
  | nil => exact List.isChain_nil
  | cons a l ih =>
    cases l with
    | nil => exact List.isChain_singleton a
    | cons b l =>
      rw [List.isChain_cons_cons] at *
      exact ⟨⟨h1.1, h2.1⟩, ih h1.2 h2.2⟩

/-- Values of an ordered line are ordered. -/
theorem values {S : Lin} {l : List ℕ} (hs : l.Pairwise (Ab c S)) (hc : l.IsChain (Ck c S)) {t : ℚ}
    (h1 : ∀ e ∈ l, lx c S e ≤ t) (h2 : ∀ e ∈ l, t ≤ rx c S e) :
    l.Pairwise (fun a b => c.f (S.sid a) t ≤ c.f (S.sid b) t) := by
  have hcc := chain_and hc hs.isChain
  have : l.IsChain (fun a b => c.f (S.sid a) t ≤ c.f (S.sid b) t) := by
    clear hs hc
    induction l with
    | nil => exact List.isChain_nil
    | cons a l ih =>
      cases l with
      | nil => exact List.isChain_singleton a
      | cons b l =>
        rw [List.isChain_cons_cons] at *
        exact ⟨hcc.1.1.le hcc.1.2 (h1 a (by simp)) (h2 a (by simp)) (h1 b (by simp)) (h2 b (by simp)),
          ih (fun e he => h1 e (List.mem_cons_of_mem _ he)) (fun e he => h2 e (List.mem_cons_of_mem _ he)) hcc.2⟩
  have tr : IsTrans ℕ (fun a b => c.f (S.sid a) t ≤ c.f (S.sid b) t) := ⟨fun _ _ _ => le_trans⟩
  exact List.isChain_iff_pairwise.mp this

/-- Two elements of the line with the same value: some neighbours meet. -/
theorem walkC {S : Lin} {l : List ℕ} (hs : l.Pairwise (Ab c S)) (hc : l.IsChain (Ck c S)) {t w : ℚ}
    (h1 : ∀ e ∈ l, lx c S e ≤ t) (h2 : ∀ e ∈ l, t ≤ rx c S e) (Q : ℕ → Prop) {x y : ℕ} (hx : x ∈ l) (hy : y ∈ l)
    (hxw : c.f (S.sid x) t = w) (hyw : c.f (S.sid y) t = w) (hqx : Q x) (hqy : ¬ Q y) :
    ∃ a ∈ l, ∃ b ∈ l, Q a ∧ ¬ Q b ∧ c.f (S.sid b) t = w ∧ ¬ Int c S a t ∧ ¬ Int c S b t := by
  obtain ⟨a, ha, b, hb, k1, k2, k3, k4, k5⟩ :=
    Sweep.walk (φ := fun e => c.f (S.sid e) t) (w := w) Q hc (values hs hc h1 h2) hx hy hxw hyw hqx hqy
  refine ⟨a, ha, b, hb, k3, k4, k2, ?_⟩
  rcases k5 with k5 | k5
  · exact k5 t (k1.trans k2.symm) (h1 a ha) (h2 a ha) (h1 b hb) (h2 b hb)
  · exact (k5 t (k2.trans k1.symm) (h1 b hb) (h2 b hb) (h1 a ha) (h2 a ha)).symm

section
variable (hb : Base c β R p ids) (h : Core c β R p)
include hb h

theorem Core.isL {x : ℕ} (hx : x ∈ R.lin.sweepLine) : IsL R.lin x := (hb.sl x hx).1

theorem Core.opp' {x : ℕ} (hx : x < 2 * c.N) (h0 : x % 2 = 0) : R.lin.opp x = x + 1 ∨ 2 * c.N ≤ R.lin.opp x := by
  have := h.opp (x / 2) (by omega)
  have e : 2 * (x / 2) = x := by omega
  rwa [e] at this

theorem Core.sid {x : ℕ} (hx : x < 2 * c.N) (h0 : x % 2 = 0) : R.lin.sid x = x / 2 := by
  have := hb.wf.sid0 (x / 2) (by omega)
  have e : 2 * (x / 2) = x := by omega
  rwa [e] at this

theorem Core.lxA {x : ℕ} (hx : x < 2 * c.N) (h0 : x % 2 = 0) : lx c R.lin x = c.X (c.A (x / 2)) := by
  have := hb.wf.initA (x / 2) (by omega)
  have e : 2 * (x / 2) = x := by omega
  rw [e] at this
  unfold lx; rw [this]

theorem Core.lxB {x : ℕ} (hx : x < 2 * c.N) (h0 : x % 2 = 0) : lx c R.lin (x + 1) = c.X (c.B (x / 2)) := by
  have := hb.wf.initB (x / 2) (by omega)
  have e : 2 * (x / 2) = x := by omega
  rw [e] at this
  unfold lx; rw [this]

/-- The end of a piece: the end of the segment, or beyond the first bad contact. -/
theorem Core.rx_or {x : ℕ} (hx : x < 2 * c.N) (h0 : x % 2 = 0) :
    rx c R.lin x = c.X (c.B (x / 2)) ∨ β < rx c R.lin x := by
  have big := hb.wf.big
  rcases h.opp' hb hx h0 with k | k
  · left; rw [← h.lxB hb hx h0]; unfold rx lx Lin.end; rw [k]
  · right; exact h.new _ (hb.wf.oppLt x (by omega)) k

/-- The end of a piece is not before any lower bound of the queue. -/
theorem Core.le_rx {t : ℚ} (ht : t ≤ β) (hq : ∀ e ∈ R.lin.queue, t ≤ lx c R.lin e) {x : ℕ}
    (hx : x ∈ R.lin.sweepLine) : t ≤ rx c R.lin x := by
  obtain ⟨⟨k1, k2⟩, k3, k4⟩ := (h.tmem x).mp hx
  rcases h.rx_or hb k1 k2 with k | k
  · rw [k, ← h.lxB hb k1 k2]; exact hq _ k4
  · linarith

theorem Core.le_rx' {x : ℕ} (hx : x ∈ R.lin.sweepLine) : c.X p ≤ rx c R.lin x := h.le_rx hb hb.pβ hb.qge hx

/-- Membership of the line by the ends of the segment. -/
theorem Core.mem_of {i : ℕ} (hi' : i < c.N) (h1 : 2 * i ∉ R.lin.queue) (h2 : c.X p < c.X (c.B i)) :
    2 * i ∈ R.lin.sweepLine := by
  rw [h.tmem]
  refine ⟨⟨by omega, by omega⟩, h1, ?_⟩
  by_contra k
  have := h.ple (2 * i + 1) (by omega) k
  unfold lx at this
  rw [hb.wf.initB i hi'] at this
  linarith

end

section
variable (hb : Base c β R p ids) (h : Clean c β R p)
include hb h

/-- No two segments from the left meet at the next point. -/
theorem Clean.nab_next {t : ℚ} (ht : t ≤ β) (hpt : c.X p < t) (hq : ∀ e ∈ R.lin.queue, t ≤ lx c R.lin e) : Nab c t := by
  intro i hi' j hj hij a1 a2 b1 b2 hf
  have big := hb.wf.big
  have nq : ∀ k < c.N, c.X (c.A k) < t → 2 * k ∉ R.lin.queue := by
    intro k hk h1 h2
    have := hq _ h2
    unfold lx at this
    rw [hb.wf.initA k hk] at this
    linarith
  have mi := h.mem_of hb hi' (nq i hi' a1) (by linarith)
  have mj := h.mem_of hb hj (nq j hj b1) (by linarith)
  obtain ⟨a, ha, b, hb', k1, k2, k3, k4, k5⟩ := walkC h.sorted h.chain (t := t) (w := c.f i t)
    (fun e he => ((hb.sl e he).2).trans hpt.le) (fun e he => h.le_rx hb ht hq he) (fun x => x = 2 * i) mi mj
    (by rw [hb.wf.sid0 i hi']) (by rw [hb.wf.sid0 j hj]; exact hf.symm) rfl (by omega)
  subst k1
  refine k4 ⟨?_, ?_⟩
  · unfold lx; rw [hb.wf.initA i hi']; exact a1
  · rcases h.rx_or hb (x := 2 * i) (by omega) (by omega) with k | k
    · rw [k, show 2 * i / 2 = i by omega]; exact a2
    · linarith

/-- When everything up to the bad contact has been processed, the state cannot be clean. -/
theorem Clean.final (gd : c.Good0) (hq : ∀ e ∈ R.lin.queue, β < lx c R.lin e) {i j : ℕ} (bad : Bad c i j β) : False := by
  have hp := hb.pβ
  have nab : Nab c β := by
    rcases eq_or_lt_of_le hp with k | k
    · rw [← k]; exact h.nab
    · exact h.nab_next hb le_rfl k fun e he => (hq e he).le
  have nq : ∀ k < c.N, c.X (c.A k) ≤ β → 2 * k ∉ R.lin.queue := by
    intro k hk h1 h2
    have := hq _ h2
    unfold lx at this
    rw [hb.wf.initA k hk] at this
    linarith
  have start : ∀ k < c.N, c.X (c.A k) = β → c.X p = β := by
    intro k hk hk'
    have := h.ple (2 * k) (by omega) (nq k hk hk'.le)
    unfold lx at this
    rw [hb.wf.initA k hk] at this
    linarith
  have mid : ∀ {i j}, Bad c i j β → c.X (c.A i) < β → β < c.X (c.B i) → False := by
    intro i j ⟨hi', hj, hij, r1, r2, hf, _⟩ a1 a2
    rcases eq_or_lt_of_le r2.1 with k | k
    · have pβ := start j hj k
      have mi := h.mem_of hb hi' (nq i hi' a1.le) (by linarith)
      have mj := h.mem_of hb hj (nq j hj k.le) (by rw [pβ, ← k]; exact gd.lt j hj)
      have ep : c.A j = p := (gd.eq_iff (gd.memA j hj) hb.pP).mpr (by linarith)
      rcases h.v with v | v
      · have := v _ mj
        unfold lx at this
        rw [hb.wf.initA j hj] at this
        linarith
      · refine v _ mi ?_ ⟨?_, ?_⟩
        · rw [hb.wf.sid0 i hi', pβ, hf, ← ep]
          have := gd.onA j hj
          unfold Ctx.On at this
          rw [this, k]
        · unfold lx; rw [hb.wf.initA i hi']; linarith
        · rcases h.rx_or hb (x := 2 * i) (by omega) (by omega) with z | z
          · rw [z, show 2 * i / 2 = i by omega]; linarith
          · linarith
    · exact nab i hi' j hj hij a1 a2 k r2.2 hf
  obtain ⟨hi', hj, hij, r1, r2, hf, k⟩ := bad
  rcases k with k | k | ⟨hc, k1, k2⟩
  · exact mid ⟨hi', hj, hij, r1, r2, hf, Or.inl k⟩ k.1 k.2
  · exact mid ⟨hj, hi', hij.symm, r2, r1, hf.symm, Or.inl k⟩ k.1 k.2
  · have pβ := start j hj k2.symm
    have mi := h.mem_of hb hi' (nq i hi' k1.symm.le) (by rw [pβ, k1]; exact gd.lt i hi')
    have mj := h.mem_of hb hj (nq j hj k2.symm.le) (by rw [pβ, k2]; exact gd.lt j hj)
    have hne : 2 * i ≠ 2 * j := by omega
    have : Ab c R.lin (2 * i) (2 * j) ∨ Ab c R.lin (2 * j) (2 * i) := by
      have hs : R.lin.sweepLine.Pairwise (fun a b => Ab c R.lin a b ∨ Ab c R.lin b a) := h.sorted.imp Or.inl
      haveI : Std.Symm (fun a b => Ab c R.lin a b ∨ Ab c R.lin b a) := ⟨fun _ _ => Or.symm⟩
      exact hs.forall mi mj hne
    have hc' : CollE c R.lin (2 * i) (2 * j) := by unfold CollE; rw [hb.wf.sid0 i hi', hb.wf.sid0 j hj]; exact hc
    rcases this with z | z
    · exact z.not_coll hc'
    · exact z.not_coll hc'.symm

end

/-! ### Preservation by the intersection test -/

theorem Core.res (hb : Base c β R p ids) (hb2 : Base c β R' p ids) (h : Core c β R p) (mv : Mv R R')
    (alt : R'.lin.sweepLine = R.lin.sweepLine ∧ ∀ e, cnt R.lin ≤ e → e < cnt R'.lin → β < lx c R'.lin e) :
    Core c β R' p := by
  have big := hb.wf.big
  have q : ∀ x < 2 * c.N, x ∈ R'.lin.queue ↔ x ∈ R.lin.queue := fun x hx => ⟨mv.queue' x (by omega), mv.queue x⟩
  refine ⟨fun e he h0 => ?_, fun i hi' => ?_, fun e he hq => ?_, fun e => ?_, ?_, ?_, ?_⟩
  · by_cases k : e < cnt R.lin
    · rw [mv.lx k]; exact h.new e k h0
    · exact alt.2 e (not_lt.mp k) he
  · rcases mv.oppOr (2 * i) ⟨by omega, by omega⟩ with k | k
    · rw [k]; exact h.opp i hi'
    · right; omega
  · rw [q e he] at hq
    rw [mv.lx (by omega)]; exact h.ple e he hq
  · rw [alt.1, h.tmem]
    constructor
    · rintro ⟨k1, k2, k3⟩; exact ⟨k1, by rw [q e k1.1]; exact k2, by rw [q _ (by omega)]; exact k3⟩
    · rintro ⟨k1, k2, k3⟩; exact ⟨k1, by rw [← q e k1.1]; exact k2, by rw [← q _ (by omega)]; exact k3⟩
  · rw [alt.1]; exact h.tnd
  · rw [alt.1]
    refine h.sorted.imp_of_mem fun {a b} ha hb' k => ?_
    have la := (hb.sl a ha).1
    have lb := (hb.sl b hb').1
    unfold Ab at *
    rw [mv.lsid la, mv.lsid lb, mv.lx la.1, mv.lx lb.1]; exact k
  · rintro ⟨e, he, h0, hq, hp⟩ x hx hx1
    rw [q e he] at hq
    rw [mv.lx (by omega)] at hp
    by_cases k : x < cnt R.lin
    · rw [mv.lx k]; exact h.rl ⟨e, he, h0, hq, hp⟩ x (mv.queue' x k hx) hx1
    · have := hb.pβ
      have := alt.2 x (not_lt.mp k) (hb2.qlt x hx)
      linarith

theorem Ck.res {a b : ℕ} (h : Ck c R.lin a b) (mv : Mv R R') (hr : ∀ x, IsL R.lin x → rx c R'.lin x ≤ rx c R.lin x)
    (ha : IsL R.lin a) (hb : IsL R.lin b) : Ck c R'.lin a b := by
  intro t ht k1 k2 k3 k4
  rw [mv.lsid ha, mv.lsid hb] at ht
  rw [mv.lx ha.1] at k1
  rw [mv.lx hb.1] at k3
  obtain ⟨n1, n2⟩ := h t ht k1 (k2.trans (hr a ha)) k3 (k4.trans (hr b hb))
  exact ⟨fun g => n1 ⟨by rw [← mv.lx ha.1]; exact g.1, lt_of_lt_of_le g.2 (hr a ha)⟩,
    fun g => n2 ⟨by rw [← mv.lx hb.1]; exact g.1, lt_of_lt_of_le g.2 (hr b hb)⟩⟩

theorem int_res {a : ℕ} {t : ℚ} (h : Int c R'.lin a t) (mv : Mv R R')
    (hr : ∀ x, IsL R.lin x → rx c R'.lin x ≤ rx c R.lin x) (ha : IsL R.lin a) : Int c R.lin a t :=
  ⟨by rw [← mv.lx ha.1]; exact h.1, lt_of_lt_of_le h.2 (hr a ha)⟩

end Rene.BO
