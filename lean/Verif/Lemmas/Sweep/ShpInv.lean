import Verif.Lemmas.Sweep.ShpLoop

/-! The invariant of the loop of the shaped engine. -/

namespace Rene.Sweep
open Rene Spec

variable {c : Ctx}

section
variable {S S' : Lin} {p : Point} {e : ℕ}

/-- Three pieces do not start together along one line. -/
theorem Wf.three (w : Wf c S) {x y z : ℕ} (hx : IsL S x) (hy : IsL S y) (hz : IsL S z) (xy : x ≠ y) (yz : y ≠ z)
    (xz : x ≠ z) (h1 : Ret c S x y) (h2 : Ret c S y z) : False := by
  have h3 : Ret c S x z := ⟨h1.1.trans h2.1, h1.2.trans h2.2⟩
  have lx1 := w.lr x hx
  have lx2 := w.lr y hy
  have lx3 := w.lr z hz
  have e1 := h1.2
  have e2 := h2.2
  by_cases k1 : SameOp c S x y
  · rcases w.noOv x y hx hy xy k1 h1.1 with k | k <;> linarith
  · by_cases k2 : SameOp c S y z
    · rcases w.noOv y z hy hz yz k2 h2.1 with k | k <;> linarith
    · have k3 : SameOp c S x z := by
        unfold SameOp at k1 k2 ⊢
        clear h1 h2 h3 lx1 lx2 lx3 e1 e2 w hx hy hz xy yz xz
        tauto
      rcases w.noOv x z hx hz xz k3 h3.1 with k | k <;> linarith

/-- A new piece which starts at the current point continues one which passed through it. -/
theorem new_at (s : Step c S S' e) (h : Inv c S p) (h' : Inv c S' p) {w : ℕ} (hw : IsL S' w) (hn : cnt S ≤ w)
    (hx : lx c S' w = c.X p) : ∃ y, IsL S y ∧ S.sid y = S'.sid w ∧ Int c S y (c.X p) := by
  have hN := h'.wf.sidLt w hw
  have hs : Spans c (S'.sid w) (c.X p) := by
    refine h'.wf.spans hw hx.le ?_
    rw [← hx]; exact h'.wf.lr w hw
  obtain ⟨y, hy, e1, k1, k2⟩ := h.wf.cover' hN hs
  refine ⟨y, hy, e1, lt_of_le_of_ne k1 fun z => ?_, k2⟩
  have hy' := s.isL hy
  have hne : y ≠ w := by rintro rfl; have := hy.1; omega
  have e2 : S'.sid y = S'.sid w := by rw [s.sid y hy.1, e1]
  have l1 := h'.wf.lr w hw
  have l2 := h'.wf.lr y hy'
  have l3 : lx c S' y = c.X p := by rw [s.lx hy.1, z]
  rcases h'.wf.noOv y w hy' hw hne (by unfold SameOp; rw [e2]) (by unfold CollE; rw [e2]; exact Ctx.Coll.refl _)
    with k | k <;> linarith

/-- Nothing passes through the current point when a piece in the sweep line starts there. -/
theorem Inv.no_pass_popped (g : c.Good) (h : Inv c S p) (hr : ∀ y ∈ S.sweepLine, c.X p < rx c S y) {z : ℕ} (hz : Popped S z)
    (hzp : lx c S z = c.X p) {y : ℕ} (hy : IsL S y) (hon : c.On (S.sid y) p) : ¬ Int c S y (c.X p) := by
  intro hint
  have hzT : z ∈ S.sweepLine := h.mem_of hz.1 hz.2 (by rw [← hzp]; exact h.wf.lr z hz.1)
  have hyq : y ∉ S.queue := fun k => absurd (h.qge y k) (not_le.mpr hint.1)
  have hyT := h.mem_of hy hyq hint.2
  have hs : S.start z = p := (g.eq_iff (h.wf.memP z hz.1.1) h.pP).mpr hzp
  have zon : c.On (S.sid z) p := by rw [← hs]; exact h.wf.onL z hz.1
  have := h.through' hr hyT hzT hon.symm zon.symm hint.1
  linarith

end

/-- Every popped piece which starts at the current point does not meet pieces along its line passing through the
point. -/
def SJ (c : Ctx) (S : Lin) (p : Point) : Prop :=
  ∀ z, Popped S z → lx c S z = c.X p → ∀ y, IsL S y → CollE c S y z → ¬ Int c S y (c.X p)

theorem SJ.advance {S : Lin} {p p' : Point} (h : Inv c S p) (hlt : c.X p < c.X p') : SJ c S p' := by
  intro z hz e
  have := h.ple z hz.1.1 hz.2
  linarith

theorem SJ.step {S S' : Lin} {p : Point} {e : ℕ} (j : SJ c S p) (s : Step c S S' e) (h' : Inv c S' p)
    (he : ∀ y, IsL S y → IsL S e → lx c S e = c.X p → CollE c S y e → Int c S y (c.X p) → ¬ Int c S' y (c.X p)) :
    SJ c S' p := by
  intro z hz ez y hy hc hint
  have hyS : IsL S y := by
    refine ⟨?_, hy.2⟩
    by_contra k
    have := h'.qge y (s.new y hy.1 (not_lt.mp k))
    have := hint.1
    linarith
  have hi : Int c S y (c.X p) := by
    refine ⟨?_, lt_of_lt_of_le hint.2 (s.rx y hyS)⟩
    rw [← s.lx hyS.1]; exact hint.1
  rcases s.popped.mp hz with hzS | ⟨rfl, hzL⟩
  · refine j z hzS ?_ y hyS ?_ hi
    · rw [← s.lx hzS.1.1]; exact ez
    · unfold CollE at hc ⊢; rwa [s.sid y hyS.1, s.sid z hzS.1.1] at hc
  · refine he y hyS hzL ?_ ?_ hi hint
    · rw [← s.lx hzL.1]; exact ez
    · unfold CollE at hc ⊢; rwa [s.sid y hyS.1, s.sid z hzL.1] at hc

/-- What is known about the recorded event below. -/
structure BelOk (c : Ctx) (op : ShpOp) (S : Shp) (x z : ℕ) : Prop where
  pop : Popped S.lin z
  det : op.detects S z = true
  settled : ∀ w ∈ S.lin.queue, IsL S.lin w → ¬ Ret c S.lin w z
  le : lx c S.lin z ≤ lx c S.lin x
  slope : lx c S.lin z = lx c S.lin x → c.K (S.lin.sid z) ≤ c.K (S.lin.sid x)
  ne : z ≠ x

theorem BelOk.of_BR {op : ShpOp} {S : Shp} {b x z : ℕ} (hb : Popped S.lin b)
    (hs : ∀ w ∈ S.lin.queue, IsL S.lin w → ¬ Ret c S.lin w b) (hB : ∀ z, bel S b = some z → BelOk c op S b z)
    (le : lx c S.lin b ≤ lx c S.lin x) (sl : lx c S.lin b = lx c S.lin x → c.K (S.lin.sid b) ≤ c.K (S.lin.sid x))
    (ne : b ≠ x) (hne : bel S b ≠ some x) (h : BR op S (some b) = some z) : BelOk c op S x z := by
  change (if (!op.detects S b || S.isVertical b) = true then bel S b else some b) = some z at h
  by_cases hc : (!op.detects S b || S.isVertical b) = true
  · rw [if_pos hc] at h
    have k := hB z h
    refine ⟨k.pop, k.det, k.settled, k.le.trans le, fun hh => ?_, ?_⟩
    · have e1 : lx c S.lin z = lx c S.lin b := le_antisymm k.le (by rw [hh]; exact le)
      exact (k.slope e1).trans (sl (e1.symm.trans hh))
    · rintro rfl; exact hne h
  · rw [if_neg hc, Option.some_inj] at h
    subst h
    simp only [Bool.or_eq_true, Bool.not_eq_true', not_or, Bool.not_eq_false] at hc
    exact ⟨hb, hc.1, hs, le, sl, ne⟩

/-- The invariant of the shaped engine. -/
structure SInv (c : Ctx) (op : ShpOp) (inte : ℕ → Bool) (S : Shp) (p : Point) : Prop where
  inv : Inv c S.lin p
  len : SLen S
  interior : ∀ i, S.interior.getD i false = inte i
  kind : ∀ x y, Popped S.lin x → Popped S.lin y → x ≠ y → Ret c S.lin x y →
    S.kind x = kindOf inte (S.lin.sid x) (S.lin.sid y)
  fr : SFr op S (Popped S.lin)
  fresh : ∀ x, x % 2 = 0 → x ∈ S.lin.queue ∨ cnt S.lin ≤ x → bel S x = none
  j : SJ c S.lin p
  wk : ∀ x z, Popped S.lin x → bel S x = some z → BelOk c op S x z
  ids : Ids c S

section
variable {op : ShpOp} {inte : ℕ → Bool} {S : Shp} {p : Point} {e : ℕ}

/-- New pieces do not overlap settled ones. -/
theorem settled_new {S S' : Lin} (s : Step c S S' e) (h : Inv c S p) (h' : Inv c S' p) {z : ℕ} (hz : Popped S z)
    (hJ : lx c S z = c.X p → ∀ y, IsL S y → CollE c S y z → ¬ Int c S y (c.X p)) {w : ℕ} (hw : w ∈ S'.queue)
    (wL : IsL S' w) (hr : Ret c S' w z) : w ∈ S.queue ∧ w ≠ e ∧ IsL S w ∧ Ret c S w z := by
  by_cases hc : w < cnt S
  · obtain ⟨k1, k2⟩ := s.queued hc hw
    exact ⟨k1, k2, ⟨hc, wL.2⟩, (s.ret hc hz.1.1).mp hr⟩
  · exfalso
    have z1 := h.ple z hz.1.1 hz.2
    have w1 := h'.qge w hw
    have e1 : lx c S' w = lx c S z := by rw [hr.2, s.lx hz.1.1]
    have e2 : lx c S z = c.X p := by linarith
    obtain ⟨y, hy, ey, hint⟩ := new_at s h h' wL (not_lt.mp hc) (by rw [e1, e2])
    refine hJ e2 y hy ?_ hint
    have := hr.1
    unfold CollE at this ⊢
    rw [s.sid z hz.1.1] at this
    rw [ey]; exact this

theorem SInv.advance (g : c.Good) (h : SInv c op inte S p) (hpop : S.lin.popEvent = some e) :
    SJ c S.lin (S.lin.start e) := by
  have l := least_of_pop g h.inv.wf h.inv.qlt hpop
  have he := h.inv.qlt e l.mem
  rcases eq_or_lt_of_le (h.inv.qge e l.mem) with k | k
  · have : p = S.lin.start e := (g.eq_iff h.inv.pP (h.inv.wf.memP e he)).mpr k
    rw [← this]; exact h.j
  · exact SJ.advance h.inv k

theorem SInv.step_right (g : c.Good) (h : SInv c op inte S p) (hpop : S.lin.popEvent = some e) (hl : ¬ isLeft e = true) :
    (S.process op e).2 = true ∧ SInv c op inte (S.process op e).1 (S.lin.start e) ∧
    (S.process op e).1.lin = S.lin.process e := by
  obtain ⟨h1, h2, s, _⟩ := h.inv.step g hpop
  have l := least_of_pop g h.inv.wf h.inv.qlt hpop
  have hj := h.advance g hpop
  obtain ⟨m1, m⟩ := shp_right g (op := op) h1 l rfl hl h.len
  generalize (S.process op e).1 = S' at m ⊢
  have hm := m.lin
  rw [← hm] at h2 s
  have pop : ∀ x, Popped S'.lin x → Popped S.lin x := by
    intro x hx
    rcases s.popped.mp hx with k | ⟨_, k⟩
    · exact k
    · exact absurd (isLeft_iff.mpr k.2) hl
  have kinds : ∀ x, Popped S.lin x → S'.kind x = S.kind x := by
    intro x hx
    rcases m.kinds x hx.1.2 with k | ⟨y, _, hy, hxy, hr, k⟩
    · exact k
    · rw [k, h.kind x y hx hy hxy hr]
      unfold kindOf
      simp only [h.interior]
  have keep : ∀ x, Popped S.lin x → Keep S S' x := fun x hx => ⟨kinds x hx, m.other x, m.below x⟩
  have det : ∀ x, Popped S.lin x → op.detects S' x = op.detects S x := fun x hx =>
    (keep x hx).detects op h.inv.wf h2.wf (s.sid x hx.1.1)
  refine ⟨m1, ⟨h2, m.len, fun i => by rw [m.interior]; exact h.interior i, fun x y hx hy hxy hr => ?_,
    fun x hx hp => ?_, fun x hx hq => ?_, ?_, fun x z hx hb => ?_, ?_⟩, hm⟩
  · have hx := pop x hx
    have hy := pop y hy
    rw [kinds x hx, s.sid x hx.1.1, s.sid y hy.1.1]
    exact h.kind x y hx hy hxy ((s.ret hx.1.1 hy.1.1).mp hr)
  · have hp := pop x hp
    rw [m.fromResult, h.fr x hx hp, det x hp]
  · rw [m.below]
    refine h.fresh x hx ?_
    by_cases hc : x < cnt S.lin
    · rcases hq with k | k
      · exact Or.inl (s.queued hc k).1
      · have := s.cnt; omega
    · exact Or.inr (not_lt.mp hc)
  · exact hj.step s h2 (fun y _ he _ _ _ => absurd (isLeft_iff.mpr he.2) hl)
  · have hx := pop x hx
    rw [m.below] at hb
    have k := h.wk x z hx hb
    have zc := k.pop.1.1
    refine ⟨s.popped.mpr (Or.inl k.pop), by rw [det z k.pop]; exact k.det, fun w hw wL hr => ?_, ?_, ?_, k.ne⟩
    · obtain ⟨a1, a2, a3, a4⟩ := settled_new s h1 h2 k.pop (fun hh => hj z k.pop hh) hw wL hr
      exact k.settled w a1 a3 a4
    · rw [s.lx zc, s.lx hx.1.1]; exact k.le
    · rw [s.lx zc, s.lx hx.1.1, s.sid z zc, s.sid x hx.1.1]; exact k.slope
  · exact h.ids.step g h1 h.len l rfl s h2 m.starts m.first m.id

theorem SInv.step_left (g : c.Good) (h : SInv c op inte S p) (hpop : S.lin.popEvent = some e) (hl : isLeft e = true) :
    (S.process op e).2 = true ∧ SInv c op inte (S.process op e).1 (S.lin.start e) ∧
    (S.process op e).1.lin = S.lin.process e := by
  obtain ⟨h1, h2, s, _⟩ := h.inv.step g hpop
  have l := least_of_pop g h.inv.wf h.inv.qlt hpop
  have hj := h.advance g hpop
  obtain ⟨A, B, S2, S3, lp⟩ := h1.leftParts g l rfl hl
  obtain ⟨he, hr, heT, hop⟩ := h1.leftBasic l rfl hl
  obtain ⟨m1, m⟩ := shp_left g (op := op) h1 l rfl hl lp h.len (h.fresh e he.2 (Or.inl l.mem))
  generalize (S.process op e).1 = S' at m ⊢
  have hm : S'.lin = S.lin.process e := by rw [m.lin, lp.proc]
  rw [← hm] at h2 s
  have hS3 : S3 = S'.lin := m.lin.symm
  subst hS3
  have pA : ∀ {y}, y ∈ A → Popped S.lin y := fun k => lp.popA h1 (Or.inl k)
  have pB : ∀ {y}, y ∈ B → Popped S.lin y := fun k => lp.popA h1 (Or.inr k)
  have ne : ∀ {y}, Popped S.lin y → y ≠ e := fun k z => k.2 (z ▸ l.mem)
  have up : ∀ {y}, Popped S.lin y → Popped S'.lin y := fun k => s.popped.mpr (Or.inl k)
  have srt := h1.added_sorted g l rfl hl lp.sweep lp.inv1
  have three : ∀ {x y}, Popped S.lin x → IsL S.lin y → x ≠ y → y ≠ e → Ret c S.lin x e → Ret c S.lin y e → False :=
    fun hx hy xy ye r1 r2 => h1.wf.three hx.1 he hy (ne hx) ye.symm xy r1 r2.symm
  have keep : ∀ {x}, Popped S.lin x → ¬ Ret c S.lin x e → Keep S S' x := fun {x} hx hr =>
    m.keep x hx.1.2 (ne hx) (fun z => hr z.2.symm) (fun z => hr z.2)
  have det : ∀ {x}, Popped S.lin x → ¬ Ret c S.lin x e → op.detects S' x = op.detects S x := fun {x} hx hr =>
    (keep hx hr).detects op h1.wf h2.wf (s.sid x hx.1.1)
  have onp : ∀ {y}, IsL S.lin y → lx c S.lin y = lx c S.lin e → c.f (S.lin.sid y) (lx c S.lin e) = (S.lin.start e).y := by
    intro y hy k
    have hs : S.lin.start y = S.lin.start e := (g.eq_iff (h1.wf.memP y hy.1) (h1.wf.memP e he.1)).mpr k
    have := h1.wf.onL y hy
    rw [hs] at this
    exact this.symm
  have kA : ∀ {y}, y ∈ A → lx c S.lin y = lx c S.lin e → ¬ Ret c S.lin y e → c.K (S.lin.sid y) < c.K (S.lin.sid e) := by
    intro y hy hx hn
    have := (List.pairwise_append.mp srt).2.2 y hy e (by simp)
    rcases this with (k | k) | k
    · have e1 := onp (pA hy).1 hx
      have e2 := onp he rfl
      change c.f (S.lin.sid y) (lx c S.lin e) < c.f (S.lin.sid e) (lx c S.lin e) at k
      rw [e1, e2] at k
      exact absurd k (lt_irrefl _)
    · exact k.2
    · exact absurd ⟨k.1, hx⟩ hn
  have lxq : ∀ {w}, w ∈ S.lin.queue → lx c S.lin e ≤ lx c S.lin w := fun k => l.le _ k
  have lxp : ∀ {y}, Popped S.lin y → lx c S.lin y ≤ lx c S.lin e := fun k => h1.ple _ k.1.1 k.2
  have hsn : ∀ {z w}, Popped S.lin z → w ∈ S'.lin.queue → IsL S'.lin w → Ret c S'.lin w z →
      w ∈ S.lin.queue ∧ w ≠ e ∧ IsL S.lin w ∧ Ret c S.lin w z := fun {z w} hz hw wL hr =>
    settled_new s h1 h2 hz (fun hh => hj z hz hh) hw wL hr
  -- pieces below are settled
  have stA : ∀ {y}, y ∈ A → ∀ w ∈ S'.lin.queue, IsL S'.lin w → ¬ Ret c S'.lin w y := by
    intro y hy w hw wL hr
    obtain ⟨a1, a2, a3, a4⟩ := hsn (pA hy) hw wL hr
    by_cases hn : Ret c S.lin y e
    · exact three (pA hy) a3 (by rintro rfl; exact (pA hy).2 a1) a2 hn ⟨a4.1.trans hn.1, a4.2.trans hn.2⟩
    · have q1 := lxq a1
      have q2 := lxp (pA hy)
      have q3 := a4.2
      have q4 : lx c S.lin y = lx c S.lin e := by linarith
      have k1 := kA hy q4 hn
      have k2 := l.slopeL hl w a1 (isLeft_iff.mpr a3.2) (by linarith)
      unfold slope at k2
      rw [toLeft_left hl, toLeft_left (isLeft_iff.mpr a3.2)] at k2
      have k3 := a4.1.1
      rw [k3] at k2
      exact absurd k1 (not_lt.mpr k2)
  -- what was recorded stays
  have old : ∀ {x z}, Popped S.lin x → bel S x = some z → BelOk c op S' x z ∧ Popped S.lin z ∧
      (lx c S.lin z ≤ lx c S.lin x) ∧ (lx c S.lin z = lx c S.lin x → c.K (S.lin.sid z) ≤ c.K (S.lin.sid x)) := by
    intro x z hx hb
    have k := h.wk x z hx hb
    have zc := k.pop.1.1
    have hn : ¬ Ret c S.lin z e := fun z => k.settled e l.mem he z.symm
    refine ⟨⟨up k.pop, by rw [det k.pop hn]; exact k.det, fun w hw wL hr => ?_, ?_, ?_, k.ne⟩, k.pop, k.le, k.slope⟩
    · obtain ⟨a1, a2, a3, a4⟩ := hsn k.pop hw wL hr
      exact k.settled w a1 a3 a4
    · rw [s.lx zc, s.lx hx.1.1]; exact k.le
    · rw [s.lx zc, s.lx hx.1.1, s.sid z zc, s.sid x hx.1.1]; exact k.slope
  have c1 : ∀ {x}, Popped S.lin x → ¬ Ret c S.lin x e → ∀ z, bel S' x = some z → BelOk c op S' x z ∧ Popped S.lin z ∧
      (lx c S.lin z ≤ lx c S.lin x) ∧ (lx c S.lin z = lx c S.lin x → c.K (S.lin.sid z) ≤ c.K (S.lin.sid x)) := by
    intro x hx hn z hb
    rw [(keep hx hn).below] at hb
    exact old hx hb
  -- a piece below and what is recorded for it
  have pred : ∀ {y x z}, y ∈ A → ¬ Ret c S.lin y e → BR op S' (some y) = some z → Popped S'.lin x →
      x < cnt S.lin → lx c S.lin x = lx c S.lin e → c.K (S.lin.sid x) = c.K (S.lin.sid e) → y ≠ x →
      BelOk c op S' x z ∧ Popped S.lin z ∧ (lx c S.lin z = lx c S.lin e → c.K (S.lin.sid z) < c.K (S.lin.sid e)) := by
    intro y x z hy hn hb hx xc xl xk hyx
    have P := pA hy
    have ch : ∀ z', bel S' y = some z' → lx c S.lin z' = lx c S.lin e → c.K (S.lin.sid z') < c.K (S.lin.sid e) := by
      intro z' hb' zl
      obtain ⟨_, q2, q3, q4⟩ := c1 P hn z' hb'
      have := lxp P
      have yl : lx c S.lin y = lx c S.lin e := by linarith
      exact lt_of_le_of_lt (q4 (zl.trans yl.symm)) (kA hy yl hn)
    refine ⟨BelOk.of_BR (up P) (stA hy) (fun z hz => (c1 P hn z hz).1) ?_ ?_ hyx ?_ hb, ?_⟩
    · rw [s.lx P.1.1, s.lx xc, xl]; exact lxp P
    · rw [s.lx P.1.1, s.lx xc, xl, s.sid y P.1.1, s.sid x xc, xk]
      intro q
      exact (kA hy q hn).le
    · intro q
      have := ch x q xl
      rw [xk] at this
      exact absurd this (lt_irrefl _)
    · change (if (!op.detects S' y || S'.isVertical y) = true then bel S' y else some y) = some z at hb
      by_cases hc : (!op.detects S' y || S'.isVertical y) = true
      · rw [if_pos hc] at hb
        exact ⟨(c1 P hn z hb).2.1, ch z hb⟩
      · rw [if_neg hc, Option.some_inj] at hb
        subst hb
        exact ⟨P, fun q => kA hy q hn⟩
  have nd : (A ++ e :: B).Nodup := lp.inv1.tnd
  have pe : Popped S'.lin e := s.popped.mpr (Or.inr ⟨rfl, he⟩)
  -- the overlapping piece below
  have c3 : ∀ {b}, A.getLast? = some b → Ret c S.lin b e → ∀ z, bel S' b = some z → BelOk c op S' b z ∧ Popped S.lin z := by
    intro b hb hn z hz
    obtain ⟨A', rfl⟩ : ∃ A', A = A' ++ [b] := by
      obtain ⟨A', hA'⟩ := List.getLast?_eq_some_iff.mp hb
      exact ⟨A', hA'⟩
    have Pb : Popped S.lin b := pA (by simp)
    cases hu : A'.getLast? with
    | none =>
      have : A' = [] := List.getLast?_eq_none_iff.mp hu
      subst this
      rw [m.belB0 b rfl hn] at hz
      obtain ⟨q1, q2, _⟩ := old Pb hz
      exact ⟨q1, q2⟩
    | some u =>
      rw [m.belB A' b rfl hn u hu] at hz
      have mu : u ∈ A' := List.mem_of_getLast? hu
      have hub : u ≠ b := by
        have := (List.nodup_append.mp (List.nodup_append.mp nd).1).2.2 u mu b (by simp)
        exact this
      have hnu : ¬ Ret c S.lin u e := fun z => three (pA (by simp [mu])) Pb.1 hub (ne Pb) z hn
      obtain ⟨q1, q2, _⟩ := pred (y := u) (x := b) (by simp [mu]) hnu hz (up Pb) Pb.1.1 hn.2 hn.1.1 hub
      exact ⟨q1, q2⟩
  -- the event itself
  have c2 : ∀ z, bel S' e = some z → BelOk c op S' e z ∧ Popped S.lin z ∧
      ((∀ b, A.getLast? = some b → ¬ Ret c S.lin b e) → lx c S.lin z = lx c S.lin e →
        c.K (S.lin.sid z) < c.K (S.lin.sid e)) := by
    intro z hz
    rw [m.belE] at hz
    cases hb : A.getLast? with
    | none => rw [hb] at hz; simp [BR] at hz
    | some b =>
      rw [hb] at hz
      have mb : b ∈ A := List.mem_of_getLast? hb
      have P := pA mb
      by_cases hn : Ret c S.lin b e
      · refine ⟨BelOk.of_BR (up P) (stA mb) (fun z hz => (c3 hb hn z hz).1) ?_ ?_ (ne P) ?_ hz, ?_,
          fun q => absurd hn (q b rfl)⟩
        · rw [s.lx P.1.1, s.lx he.1]; exact lxp P
        · intro _; rw [s.sid b P.1.1, s.sid e he.1]; exact hn.1.1.le
        · intro q
          exact ne (c3 hb hn e q).2 rfl
        · change (if (!op.detects S' b || S'.isVertical b) = true then bel S' b else some b) = some z at hz
          by_cases hc : (!op.detects S' b || S'.isVertical b) = true
          · rw [if_pos hc] at hz
            exact (c3 hb hn z hz).2
          · rw [if_neg hc, Option.some_inj] at hz
            exact hz ▸ P
      · obtain ⟨q1, q2, q3⟩ := pred (y := b) (x := e) mb hn hz pe he.1 rfl rfl (ne P)
        exact ⟨q1, q2, fun _ => q3⟩
  -- the overlapping piece above
  have c4 : ∀ {a}, B.head? = some a → Ret c S.lin a e → ∀ z, bel S' a = some z → BelOk c op S' a z := by
    intro a ha hn z hz
    have ma : a ∈ B := List.mem_of_mem_head? ha
    have P := pB ma
    rw [m.belA a ha hn.symm] at hz
    have hnb : ∀ b, A.getLast? = some b → ¬ Ret c S.lin b e := by
      intro b hb q
      have mb : b ∈ A := List.mem_of_getLast? hb
      exact three P (pA mb).1 (fun q' => (List.nodup_append.mp nd).2.2 b mb a (by simp [ma]) q'.symm) (ne (pA mb)) hn q
    refine BelOk.of_BR pe (fun w hw wL hr => ?_) (fun z hz => (c2 z hz).1) ?_ ?_ (ne P).symm ?_ hz
    · have r1 : Ret c S'.lin e a := (s.ret he.1 P.1.1).mpr hn.symm
      obtain ⟨a1, a2, a3, a4⟩ := hsn P hw wL ⟨hr.1.trans r1.1, hr.2.trans r1.2⟩
      exact three P a3 (by rintro rfl; exact P.2 a1) a2 hn ⟨a4.1.trans hn.1, a4.2.trans hn.2⟩
    · rw [s.lx P.1.1, s.lx he.1, hn.2]
    · intro _; rw [s.sid a P.1.1, s.sid e he.1]; exact hn.1.1.ge
    · intro q
      have := (c2 a q).2.2 hnb hn.2
      rw [hn.1.1] at this
      exact absurd this (lt_irrefl _)
  have twin : ∀ {x}, Popped S.lin x → Ret c S.lin x e → A.getLast? = some x ∨ B.head? = some x :=
    fun hx hr => lp.adjacent g h1 l rfl hl hx hr
  have hinte : (fun i => S.interior.getD i false) = inte := funext h.interior
  refine ⟨m1, ⟨h2, m.len, fun i => by rw [m.interior]; exact h.interior i, fun x y hx hy hxy hret => ?_,
    fun x hx hp => ?_, fun x hx hq => ?_, ?_, fun x z hx hb => ?_, ?_⟩, hm⟩
  · rcases s.popped.mp hx with hxS | ⟨rfl, _⟩
    · have xc := hxS.1.1
      rcases s.popped.mp hy with hyS | ⟨rfl, _⟩
      · have hr := (s.ret xc hyS.1.1).mp hret
        have hn : ¬ Ret c S.lin x e := fun q =>
          three hxS hyS.1 hxy (ne hyS) q ⟨hr.1.symm.trans q.1, hr.2.symm.trans q.2⟩
        rw [(keep hxS hn).kind, s.sid x xc, s.sid y hyS.1.1]
        exact h.kind x y hxS hyS hxy hr
      · have hr := (s.ret xc he.1).mp hret
        rw [s.sid x xc, s.sid y he.1]
        rcases twin hxS hr with k | k
        · rw [m.kindB x k hr x (Or.inl rfl), hinte, kindOf_comm]
        · rw [m.kindA x k hr.symm x (Or.inr rfl), hinte]
    · have hyS : Popped S.lin y := (s.popped.mp hy).resolve_right (fun k => hxy k.1.symm)
      have hr := (s.ret he.1 hyS.1.1).mp hret
      rw [s.sid y hyS.1.1, s.sid x he.1]
      rcases twin hyS hr.symm with k | k
      · rw [m.kindB y k hr.symm x (Or.inr rfl), hinte]
      · rw [m.kindA y k hr x (Or.inl rfl), hinte, kindOf_comm]
  · exact m.fr (Popped S.lin) (fun y hy => hy.1) h.fr x hx ((s.popped.mp hp).imp_right (fun z => z.1))
  · have np : ¬ Popped S.lin x ∧ x ≠ e := by
      rcases hq with k | k
      · refine ⟨fun z => (s.popped.mpr (Or.inl z)).2 k, ?_⟩
        rintro rfl; exact s.gone k
      · have := s.cnt
        refine ⟨fun z => ?_, ?_⟩
        · have := z.1.1; omega
        · rintro rfl; have := he.1; omega
    rw [(m.keep x hx np.2 (fun z => np.1 (pB (List.mem_of_mem_head? z.1)))
      (fun z => np.1 (pA (List.mem_of_getLast? z.1)))).below]
    refine h.fresh x hx ?_
    by_cases hc : x < cnt S.lin
    · rcases hq with k | k
      · exact Or.inl (s.queued hc k).1
      · have := s.cnt; omega
    · exact Or.inr (not_lt.mp hc)
  · refine hj.step s h2 (fun y hy _ _ hc hi hi' => ?_)
    have hyq : y ∉ S.lin.queue := fun k => absurd (h1.qge y k) (not_le.mpr hi.1)
    have hyT := h1.mem_of hy hyq hi.2
    have hye : y ≠ e := ne ⟨hy, hyq⟩
    have hc : CollE c S.lin y e := hc
    have sw : S'.lin.sweepLine = A ++ e :: B := by rw [lp.ext2.sweepLine, lp.ext1.sweepLine]; rfl
    have ch := h2.chain
    have hadj : A.getLast? = some y ∨ B.head? = some y := by
      refine adjacent_of_coll srt ?_ hye hc
      rw [lp.sweep] at hyT
      simp only [List.mem_append, List.mem_cons] at hyT ⊢
      tauto
    have hc' : CollE c S'.lin y e := by unfold CollE; rw [s.sid y hy.1, s.sid e he.1]; exact hc
    have fin : Checked c S'.lin y e → False := by
      intro q
      have e1 : lx c S'.lin e = c.X (S.lin.start e) := s.lx he.1
      have e2 := h2.wf.lr e (s.isL he)
      have e3 := hi'.1
      have e4 := hi'.2
      rcases q.1 hc' with (k | k) | ⟨k, _⟩
      · linarith
      · have := h2.wf.lr y (s.isL hy)
        linarith
      · linarith
    rw [sw, List.isChain_append] at ch
    rcases hadj with k | k
    · exact fin (ch.2.2 y (by rw [k]; rfl) e rfl)
    · have c5 := ch.2.1
      obtain ⟨B', rfl⟩ : ∃ B', B = y :: B' := by
        cases B with
        | nil => simp at k
        | cons z B' => simp at k; exact ⟨B', by rw [k]⟩
      rw [List.isChain_cons_cons] at c5
      exact fin c5.1.symm
  · rcases s.popped.mp hx with hxS | ⟨rfl, _⟩
    · by_cases hn : Ret c S.lin x e
      · rcases twin hxS hn with k | k
        · exact (c3 k hn z hb).1
        · exact c4 k hn z hb
      · exact (c1 hxS hn z hb).1
    · exact (c2 z hb).1
  · exact h.ids.step g h1 h.len l rfl s h2 m.starts m.first m.id
end

end Rene.Sweep
