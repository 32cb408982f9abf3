import Verif.Lemmas.Sweep.Loop

/-! Annotation of left events by a property of the segments below them: geometry. -/

namespace Rene.Sweep
open Rene Spec

variable {c : Ctx}

/-- The segment is present immediately to the right of `τ`. -/
def Spans (c : Ctx) (j : ℕ) (τ : ℚ) : Prop := c.X (c.A j) ≤ τ ∧ τ < c.X (c.B j)

/-- Segment `j` is below segment `i` immediately to the right of `τ`; of overlapping segments the one of the
first operand is below. -/
def BelowE (c : Ctx) (j i : ℕ) (τ : ℚ) : Prop := AboveR c j i τ ∨ (c.Coll j i ∧ j < c.F ∧ ¬ i < c.F)

/-- Operand of a segment. -/
def opB (c : Ctx) (i : ℕ) : Bool := decide (i < c.F)

/-- Segment `j` does not meet segment `i` between `τ1` and `τ2`, or accompanies it. -/
def Cls (c : Ctx) (i j : ℕ) (τ1 τ2 : ℚ) : Prop :=
  (∀ t, c.X (c.A j) ≤ t → t ≤ c.X (c.B j) → τ1 < t → t ≤ τ2 → c.f j t < c.f i t) ∨
  (∀ t, c.X (c.A j) ≤ t → t ≤ c.X (c.B j) → τ1 < t → t ≤ τ2 → c.f i t < c.f j t ∨
    (c.f i t = c.f j t ∧ t = c.X (c.A j) ∧ t = τ2 ∧ c.K i < c.K j)) ∨
  (c.Coll i j ∧ (Spans c j τ1 ↔ Spans c j τ2))

/-- What is asked of the values `q` which the sweep computes for the segments of operand `T` from the flags
`inte` of the segments of the other operand. -/
structure Lab (c : Ctx) (T : Bool) (inte : ℕ → Bool) (q : ℕ → ℚ → Bool) (ok : ℚ → Prop) : Prop where
  none : ∀ i < c.N, opB c i = T → ∀ τ, ok τ → Spans c i τ →
    (∀ j < c.N, Spans c j τ → ¬ BelowE c j i τ) → q i τ = false
  same : ∀ i < c.N, ∀ j < c.N, opB c i = T → opB c j = T → ∀ τ, ok τ → Spans c i τ → Spans c j τ →
    BelowE c j i τ → (∀ k < c.N, Spans c k τ → BelowE c k i τ → k = j ∨ BelowE c k j τ) → q i τ = q j τ
  other : ∀ i < c.N, ∀ j < c.N, opB c i = T → opB c j ≠ T → ∀ τ, ok τ → Spans c i τ → Spans c j τ →
    BelowE c j i τ → (∀ k < c.N, Spans c k τ → BelowE c k i τ → k = j ∨ BelowE c k j τ) → q i τ = inte j
  along : ∀ i < c.N, opB c i = T → ∀ τ1 τ2, ok τ1 → ok τ2 → c.X (c.A i) ≤ τ1 → τ1 < τ2 → τ2 < c.X (c.B i) →
    (∀ j < c.N, opB c j ≠ T → Cls c i j τ1 τ2) → q i τ1 = q i τ2

theorem belowE_irrefl {i : ℕ} {τ : ℚ} : ¬ BelowE c i i τ := by
  rintro (h | ⟨_, h, h'⟩)
  · exact aboveR_not_coll h (Ctx.Coll.refl i)
  · exact h' h

theorem belowE_asymm {i j : ℕ} {τ : ℚ} (h : BelowE c i j τ) : ¬ BelowE c j i τ := by
  rintro (k | ⟨k, k1, k2⟩) <;> rcases h with h | ⟨h, h1, h2⟩
  · exact aboveR_asymm h k
  · exact aboveR_not_coll k h.symm
  · exact aboveR_not_coll h k.symm
  · exact h2 k1

theorem aboveR_trans {i j k : ℕ} {τ : ℚ} (h : AboveR c i j τ) (h' : AboveR c j k τ) : AboveR c i k τ := by
  rcases h with h | ⟨h1, h2⟩ <;> rcases h' with h' | ⟨h1', h2'⟩
  · left; linarith
  · left; linarith
  · left; linarith
  · right; exact ⟨by linarith, by linarith⟩

theorem aboveR_coll_left {i i' j : ℕ} {τ : ℚ} (h : c.Coll i i') (h' : AboveR c i j τ) : AboveR c i' j τ := by
  unfold AboveR at *
  rw [← h.f_eq, ← h.1]; exact h'

theorem aboveR_coll_right {i j j' : ℕ} {τ : ℚ} (h : c.Coll j j') (h' : AboveR c i j τ) : AboveR c i j' τ := by
  unfold AboveR at *
  rw [← h.f_eq, ← h.1]; exact h'

theorem belowE_trans {i j k : ℕ} {τ : ℚ} (h : BelowE c i j τ) (h' : BelowE c j k τ) : BelowE c i k τ := by
  rcases h with h | ⟨h, h1, h2⟩ <;> rcases h' with h' | ⟨h', h1', h2'⟩
  · exact Or.inl (aboveR_trans h h')
  · exact Or.inl (aboveR_coll_right h' h)
  · exact Or.inl (aboveR_coll_left h.symm h')
  · exact absurd h1' h2

/-- Every segment present to the right of `t` has a piece there. -/
theorem Wf.cover' {S : Lin} (w : Wf c S) {i : ℕ} (hi : i < c.N) {t : ℚ} (h : Spans c i t) :
    ∃ e, IsL S e ∧ S.sid e = i ∧ lx c S e ≤ t ∧ t < rx c S e := by
  classical
  have key : ∃ t', t < t' ∧ t' ≤ c.X (c.B i) ∧ ∀ e < cnt S, lx c S e ≤ t ∨ t' ≤ lx c S e := by
    have : ∀ n, ∃ t', t < t' ∧ t' ≤ c.X (c.B i) ∧ ∀ e < n, lx c S e ≤ t ∨ t' ≤ lx c S e := by
      intro n
      induction n with
      | zero => exact ⟨c.X (c.B i), h.2, le_rfl, by simp⟩
      | succ n ih =>
        obtain ⟨t', h1, h2, h3⟩ := ih
        by_cases hn : lx c S n ≤ t
        · refine ⟨t', h1, h2, fun e he => ?_⟩
          rcases Nat.lt_succ_iff_lt_or_eq.mp he with k | rfl
          · exact h3 e k
          · exact Or.inl hn
        · refine ⟨min t' (lx c S n), lt_min h1 (not_le.mp hn), (min_le_left _ _).trans h2, fun e he => ?_⟩
          rcases Nat.lt_succ_iff_lt_or_eq.mp he with k | rfl
          · exact (h3 e k).imp_right (fun z => (min_le_left _ _).trans z)
          · exact Or.inr (min_le_right _ _)
    exact this (cnt S)
  obtain ⟨t', h1, h2, h3⟩ := key
  -- the midpoint avoids all starts
  obtain ⟨e, he, hs, k1, k2⟩ := w.cover i hi ((t + t') / 2) (by linarith [h.1]) (by linarith)
  refine ⟨e, he, hs, ?_, by linarith⟩
  rcases h3 e he.1 with k | k
  · exact k
  · linarith

section
variable {S : Lin} {p : Point}

theorem Wf.spans {S : Lin} (w : Wf c S) {e : ℕ} (he : IsL S e) {t : ℚ} (h1 : lx c S e ≤ t) (h2 : t < rx c S e) :
    Spans c (S.sid e) t := ⟨(w.inA e he).trans h1, lt_of_lt_of_le h2 (w.inB e he)⟩

/-- A piece passing through `p` on the sweep line: all others through `p` do so, too. -/
theorem Inv.through' (h : Inv c S p) (hr : ∀ y ∈ S.sweepLine, c.X p < rx c S y) {x z : ℕ}
    (hx : x ∈ S.sweepLine) (hz : z ∈ S.sweepLine) (hxp : c.f (S.sid x) (c.X p) = p.y)
    (hzp : c.f (S.sid z) (c.X p) = p.y) (hxl : lx c S x < c.X p) : lx c S z < c.X p := by
  by_contra hc
  obtain ⟨a, ha, b, hb, k1, k2, k3, k4, k5⟩ := h.walk (t := c.X p) (w := p.y) (fun e he => h.lx_le he)
    (fun e he => h.le_rx he) (fun z => lx c S z < c.X p) hx hz hxp hzp hxl hc
  have hab := h.through hr ha hb k1 k2 k3
  have := hr a ha
  have := hr b hb
  have hlb : lx c S b = c.X p := le_antisymm (h.lx_le hb) (not_lt.mp k4)
  rcases k5.1 hab with (z | z) | ⟨z, _⟩ <;> linarith

/-- The order of the sweep line is the order of the segments immediately to the right. -/
theorem Inv.slt_at (g : c.Good) (h : Inv c S p) (hr : ∀ y ∈ S.sweepLine, c.X p < rx c S y) :
    S.sweepLine.Pairwise (fun x y => BelowE c (S.sid x) (S.sid y) (c.X p)) := by
  have hv := h.values (t := c.X p) (fun e he => h.lx_le he) (fun e he => h.le_rx he)
  refine List.Pairwise.imp_of_mem ?_ (h.sorted.and hv)
  intro x y hx hy hxy
  obtain ⟨hxy, hval⟩ := hxy
  by_cases hc : CollE c S x y
  · rcases hxy with k | k
    · exact absurd hc (aboveR_not_coll k)
    · exact Or.inr k
  rcases lt_or_eq_of_le hval with k | k
  · exact Or.inl (Or.inl k)
  · -- a common point: it is `p`
    let q : Point := ⟨c.X p - c.ε * c.f (S.sid x) (c.X p), c.f (S.sid x) (c.X p)⟩
    have hqX : c.X q = c.X p := by unfold Ctx.X; simp only [q]; unfold Ctx.X; ring
    have o1 : c.On (S.sid x) q := by unfold Ctx.On; rw [hqX]
    have o2 : c.On (S.sid y) q := by unfold Ctx.On; rw [hqX]; exact k
    have sx := h.wf.spans (h.isL hx) (h.lx_le hx) (hr x hx)
    have sy := h.wf.spans (h.isL hy) (h.lx_le hy) (hr y hy)
    have hqP : q ∈ c.P := g.cross _ (h.wf.sidLt x (h.isL hx)) _ (h.wf.sidLt y (h.isL hy)) hc q o1 o2
      (by rw [hqX]; exact sx.1) (by rw [hqX]; exact sx.2.le) (by rw [hqX]; exact sy.1)
      (by rw [hqX]; exact sy.2.le)
    have hqp : q = p := (g.eq_iff hqP h.pP).mpr hqX
    have hxp : c.f (S.sid x) (c.X p) = p.y := by
      have := congrArg Point.y hqp
      exact this
    have hyp : c.f (S.sid y) (c.X p) = p.y := by rw [← k]; exact hxp
    by_cases hlx : lx c S x < c.X p
    · exact absurd (h.through hr hx hy hxp hyp hlx) hc
    · by_cases hly : lx c S y < c.X p
      · exact absurd (h.through hr hy hx hyp hxp hly).symm hc
      · have e1 : lx c S x = c.X p := le_antisymm (h.lx_le hx) (not_lt.mp hlx)
        have e2 : lx c S y = c.X p := le_antisymm (h.lx_le hy) (not_lt.mp hly)
        rcases hxy with k' | k'
        · rw [e1, e2, max_self] at k'; exact Or.inl k'
        · exact Or.inr k'

/-- Pieces which reach `p` from the left: if one of them passes, they are on the same line, or there is a
piece on the line of the passing one which starts at `p`. -/
def Pass (c : Ctx) (S : Lin) (p : Point) : Prop :=
  ∀ x y, IsL S x → IsL S y → c.On (S.sid x) p → c.On (S.sid y) p → Int c S x (c.X p) → lx c S y < c.X p →
    c.X p ≤ rx c S y → CollE c S x y ∨ ∃ z, IsL S z ∧ CollE c S x z ∧ lx c S z = c.X p

/-- Overlapping pieces with a common start: a piece does not pass the end of the other segment. -/
def CollB (c : Ctx) (S : Lin) : Prop :=
  ∀ x y, IsL S x → IsL S y → x ∉ S.queue → y ∉ S.queue → CollE c S x y → lx c S x = lx c S y →
    rx c S x ≤ c.X (c.B (S.sid y))

/-- What is in the sweep line or the queue. -/
theorem Inv.span_cases (h : Inv c S p) {j : ℕ} (hj : j < c.N) (hs : Spans c j (c.X p)) :
    ∃ y, IsL S y ∧ S.sid y = j ∧ lx c S y ≤ c.X p ∧ c.X p < rx c S y ∧
      (y ∈ S.sweepLine ∨ (y ∈ S.queue ∧ lx c S y = c.X p)) := by
  obtain ⟨y, hy, e, k1, k2⟩ := h.wf.cover' hj hs
  refine ⟨y, hy, e, k1, k2, ?_⟩
  by_cases hq : y ∈ S.queue
  · exact Or.inr ⟨hq, le_antisymm k1 (h.qge y hq)⟩
  · exact Or.inl (h.mem_of hy hq k2)

end

section
variable {S : Lin} {p : Point} {e : ℕ}

/-- The sweep line with the new event, ordered immediately to the right of `p`. -/
theorem Inv.added_sorted (g : c.Good) (h : Inv c S p) (l : Least c S e) (hp : lx c S e = c.X p)
    (hl : isLeft e = true) {A B : List ℕ} (hT : S.sweepLine = A ++ B)
    (h1 : Inv0 c { S with queue := S.queue.erase e, sweepLine := A ++ e :: B, ok := S.ok } p) :
    (A ++ e :: B).Pairwise (fun x y => BelowE c (S.sid x) (S.sid y) (c.X p)) := by
  obtain ⟨he, hr, heT, hop⟩ := h.leftBasic l hp hl
  have s0 := h.slt_at g hr
  have s1 : (A ++ e :: B).Pairwise (SLt c S) := h1.sorted
  rw [hT, List.pairwise_append] at s0
  rw [List.pairwise_append, List.pairwise_cons] at s1
  have mem : ∀ x, x ∈ A ∨ x ∈ B → x ∈ S.sweepLine := fun x hx => by rw [hT]; simpa using hx
  rw [List.pairwise_append, List.pairwise_cons]
  refine ⟨s0.1, ⟨fun y hy => ?_, s0.2.1⟩, fun x hx y hy => ?_⟩
  · have := s1.2.1.1 y hy
    unfold SLt at this
    rw [max_eq_left (by rw [hp]; exact h.lx_le (mem y (Or.inr hy))), hp] at this
    exact this
  · rcases List.mem_cons.mp hy with rfl | hy
    · have := s1.2.2 x hx y List.mem_cons_self
      unfold SLt at this
      rw [max_eq_right (by rw [hp]; exact h.lx_le (mem x (Or.inl hx))), hp] at this
      exact this
    · exact s0.2.2 x hx y hy

end

/-- Every segment present to the left of `t` has a piece there. -/
theorem Wf.cover'' {S : Lin} (w : Wf c S) {i : ℕ} (hi : i < c.N) {t : ℚ} (h1 : c.X (c.A i) < t)
    (h2 : t ≤ c.X (c.B i)) : ∃ e, IsL S e ∧ S.sid e = i ∧ lx c S e < t ∧ t ≤ rx c S e := by
  have key : ∃ t', t' < t ∧ c.X (c.A i) ≤ t' ∧ ∀ e < cnt S, t ≤ lx c S e ∨ lx c S e ≤ t' := by
    have : ∀ n, ∃ t', t' < t ∧ c.X (c.A i) ≤ t' ∧ ∀ e < n, t ≤ lx c S e ∨ lx c S e ≤ t' := by
      intro n
      induction n with
      | zero => exact ⟨c.X (c.A i), h1, le_rfl, by simp⟩
      | succ n ih =>
        obtain ⟨t', h1, h2, h3⟩ := ih
        by_cases hn : t ≤ lx c S n
        · refine ⟨t', h1, h2, fun e he => ?_⟩
          rcases Nat.lt_succ_iff_lt_or_eq.mp he with k | rfl
          · exact h3 e k
          · exact Or.inl hn
        · refine ⟨max t' (lx c S n), max_lt h1 (not_le.mp hn), h2.trans (le_max_left _ _), fun e he => ?_⟩
          rcases Nat.lt_succ_iff_lt_or_eq.mp he with k | rfl
          · exact (h3 e k).imp_right (fun z => z.trans (le_max_left _ _))
          · exact Or.inr (le_max_right _ _)
    exact this (cnt S)
  obtain ⟨t', k1, k2, k3⟩ := key
  obtain ⟨e, he, hs, m1, m2⟩ := w.cover i hi ((t + t') / 2) (by linarith) (by linarith)
  refine ⟨e, he, hs, by linarith, ?_⟩
  rcases k3 _ (w.oppLt e he.1) with k | k
  · exact k
  · have : lx c S (S.opp e) = rx c S e := rfl
    linarith

/-- The point of a line at an abscissa. -/
def at' (c : Ctx) (i : ℕ) (t : ℚ) : Point := ⟨t - c.ε * c.f i t, c.f i t⟩

theorem at'_X {i : ℕ} {t : ℚ} : c.X (at' c i t) = t := by unfold Ctx.X at'; simp only; ring

theorem at'_on {i : ℕ} {t : ℚ} : c.On i (at' c i t) := by unfold Ctx.On; rw [at'_X]; rfl

theorem at'_on' {i j : ℕ} {t : ℚ} (h : c.f i t = c.f j t) : c.On j (at' c i t) := by
  unfold Ctx.On; rw [at'_X]; exact h

section
variable {S : Lin} {p : Point} {e : ℕ}

/-- Nothing happens along a piece on the sweep line between its start and the current point. -/
theorem Inv.cls (g : c.Good) (h : Inv c S p) (l : Least c S e) (hp : lx c S e = c.X p)
    (hl : isLeft e = true) (hpass : Pass c S p) (hcb : CollB c S) {b : ℕ} (hb : b ∈ S.sweepLine)
    (hbl : lx c S b < c.X p) (hk : c.On (S.sid b) p → c.K (S.sid b) < c.K (S.sid e)) {j : ℕ} (hj : j < c.N) :
    Cls c (S.sid b) j (lx c S b) (c.X p) := by
  obtain ⟨he, hr, heT, hop⟩ := h.leftBasic l hp hl
  have hbL := h.isL hb
  have hbr := hr b hb
  have hbN := h.wf.sidLt b hbL
  have sb := h.wf.spans hbL hbl.le hbr
  have sb1 := h.wf.inA b hbL
  -- a segment of the queue through `p`
  have inq : ∀ y ∈ S.queue, IsL S y → lx c S y = c.X p → c.K (S.sid e) ≤ c.K (S.sid y) := by
    intro y hy hyL hyp
    have := l.slopeL hl y hy (isLeft_iff.mpr hyL.2) (by rw [hp]; exact hyp)
    rw [slope_left hl, slope_left (isLeft_iff.mpr hyL.2)] at this
    exact this
  have onp : ∀ {y}, IsL S y → lx c S y = c.X p → c.On (S.sid y) p := by
    intro y hy hyp
    have : S.start y = p := (g.eq_iff (h.wf.memP y hy.1) h.pP).mpr hyp
    rw [← this]; exact h.wf.onL y hy
  by_cases hc : c.Coll (S.sid b) j
  · refine Or.inr (Or.inr ⟨hc, ?_⟩)
    constructor
    · intro hs
      obtain ⟨y, hy, rfl, k1, k2⟩ := h.wf.cover' hj hs
      have hyq : y ∉ S.queue := fun z => by have := h.qge y z; linarith
      have hbq : b ∉ S.queue := fun z => by have := h.qge b z; linarith
      have k3 : lx c S y = lx c S b := by
        by_contra hne
        have hon : c.On (S.sid y) (S.start b) := (h.wf.onL b hbL).coll hc
        exact h.noInt (S.start b) (h.wf.memP b hbL.1) hbl y hy hon ⟨lt_of_le_of_ne k1 hne, k2⟩
      have := hcb b y hbL hy hbq hyq hc k3.symm
      exact ⟨hs.1.trans hbl.le, lt_of_lt_of_le hbr this⟩
    · intro hs
      by_cases k : c.X (c.A j) ≤ lx c S b
      · exact ⟨k, hbl.trans hs.2⟩
      · exfalso
        push Not at k
        have hon : c.On (S.sid b) (c.A j) := (g.onA j hj).coll hc.symm
        rcases lt_or_eq_of_le hs.1 with k' | k'
        · exact h.noInt (c.A j) (g.memA j hj) k' b hbL hon ⟨k, k'.trans hbr⟩
        · have hA : c.A j = p := (g.eq_iff (g.memA j hj) h.pP).mpr k'
          rw [hA] at hon
          obtain ⟨y, hy, rfl, m1, m2, m3⟩ := h.span_cases hj hs
          have m4 : lx c S y = c.X p := le_antisymm m1 (by rw [← k']; exact h.wf.inA y hy)
          rcases m3 with m3 | ⟨m3, _⟩
          · have := h.through' hr hb m3 hon.symm (onp hy m4).symm hbl
            linarith
          · have := inq y m3 hy m4
            have := hk hon
            rw [hc.1] at this
            linarith
  · -- no common point before `p`
    have no : ∀ t, c.X (c.A j) ≤ t → t ≤ c.X (c.B j) → lx c S b < t → t < c.X p →
        c.f (S.sid b) t ≠ c.f j t := by
      intro t t1 t2 t3 t4 hf
      have hq : at' c (S.sid b) t ∈ c.P := g.cross _ hbN _ hj hc _ at'_on (at'_on' hf)
        (by rw [at'_X]; linarith) (by rw [at'_X]; linarith [sb.2]) (by rw [at'_X]; exact t1) (by rw [at'_X]; exact t2)
      exact h.noInt _ hq (by rw [at'_X]; exact t4) b hbL at'_on ⟨by rw [at'_X]; exact t3, by rw [at'_X]; linarith⟩
    have last : c.X (c.A j) ≤ c.X p → c.X p ≤ c.X (c.B j) → c.f (S.sid b) (c.X p) = c.f j (c.X p) →
        c.X p = c.X (c.A j) ∧ c.K (S.sid b) < c.K j := by
      intro t1 t2 hf
      have hq : at' c (S.sid b) (c.X p) ∈ c.P := g.cross _ hbN _ hj hc _ at'_on (at'_on' hf)
        (by rw [at'_X]; exact sb.1) (by rw [at'_X]; exact sb.2.le) (by rw [at'_X]; exact t1) (by rw [at'_X]; exact t2)
      have hqp : at' c (S.sid b) (c.X p) = p := (g.eq_iff hq h.pP).mpr at'_X
      have o1 : c.On (S.sid b) p := by
        have := at'_on (c := c) (i := S.sid b) (t := c.X p)
        rwa [hqp] at this
      have o2 : c.On j p := by
        have := at'_on' (c := c) hf
        rwa [hqp] at this
      have hA : c.X (c.A j) = c.X p := by
        by_contra hne
        obtain ⟨y, hy, rfl, m1, m2⟩ := h.wf.cover'' hj (lt_of_le_of_ne t1 hne) t2
        rcases hpass b y hbL hy o1 o2 ⟨hbl, hbr⟩ m1 m2 with z | ⟨z, hz, zc, zl⟩
        · exact hc z
        · by_cases zq : z ∈ S.queue
          · have k1 := inq z zq hz zl
            have k2 := hk o1
            rw [zc.1] at k2
            linarith
          · have zT := h.mem_of hz zq (by rw [← zl]; exact h.wf.lr z hz)
            have := h.through' hr hb zT o1.symm (onp hz zl).symm hbl
            linarith
      refine ⟨hA.symm, ?_⟩
      have hs : Spans c j (c.X p) := ⟨t1, by rw [← hA]; exact g.lt j hj⟩
      obtain ⟨y, hy, rfl, m1, m2, m3⟩ := h.span_cases hj hs
      rcases m3 with m3 | ⟨m3, m4⟩
      · exact absurd (h.through hr hb m3 o1.symm o2.symm hbl) hc
      · exact lt_of_lt_of_le (hk o1) (inq y m3 hy m4)
    by_cases hex : ∃ t, c.X (c.A j) ≤ t ∧ t ≤ c.X (c.B j) ∧ lx c S b < t ∧ t ≤ c.X p ∧
        c.f j t < c.f (S.sid b) t
    · obtain ⟨t0, a1, a2, a3, a4, a5⟩ := hex
      left
      intro t t1 t2 t3 t4
      by_contra hn
      push Not at hn
      rcases eq_or_lt_of_le hn with k | k
      · rcases eq_or_lt_of_le t4 with m | m
        · subst m
          have := (last t1 t2 k).1
          have : t0 = c.X p := by linarith
          rw [this] at a5
          linarith
        · exact no t t1 t2 t3 m k
      · have hne : c.K (S.sid b) ≠ c.K j := by
          intro z; unfold Ctx.f at k a5; rw [z] at k a5; linarith
        have hd : c.K (S.sid b) - c.K j ≠ 0 := fun z => hne (by linarith)
        have z : c.f (S.sid b) ((c.C j - c.C (S.sid b)) / (c.K (S.sid b) - c.K j)) =
            c.f j ((c.C j - c.C (S.sid b)) / (c.K (S.sid b) - c.K j)) := by
          unfold Ctx.f
          field_simp
          ring
        generalize (c.C j - c.C (S.sid b)) / (c.K (S.sid b) - c.K j) = z0 at z
        rcases lt_trichotomy t0 t with m | m | m
        · obtain ⟨z1, z2⟩ := aff_cross (fun z => hc z.symm) z.symm a5 k m
          exact no z0 (by linarith) (by linarith) (by linarith) (by linarith) z
        · subst m; linarith
        · obtain ⟨z1, z2⟩ := aff_cross hc z k a5 m
          exact no z0 (by linarith) (by linarith) (by linarith) (by linarith) z
    · push Not at hex
      right; left
      intro t t1 t2 t3 t4
      rcases lt_or_eq_of_le (hex t t1 t2 t3 t4) with k | k
      · exact Or.inl k
      · right
        rcases eq_or_lt_of_le t4 with m | m
        · subst m
          have := last t1 t2 k
          exact ⟨k, this.1, rfl, this.2⟩
        · exact absurd k (no t t1 t2 t3 m)

/-- The event waits for an overlapping one of the first operand at the same start. -/
def Pending (c : Ctx) (S : Lin) (x : ℕ) : Prop :=
  ∃ z ∈ S.queue, IsL S z ∧ CollE c S z x ∧ lx c S z = lx c S x ∧ S.sid z < c.F ∧ ¬ S.sid x < c.F

/-- The value taken from the event below. -/
def fromBelow (c : Ctx) (S : Lin) (inte : ℕ → Bool) (oth : ℕ → Bool) (x : ℕ) : Option ℕ → Bool
  | none => false
  | some b => if opB c (S.sid x) = opB c (S.sid b) then oth b else inte (S.sid b)

/-- The value at the start of an event follows from the event below it. -/
theorem Inv.pred_value (g : c.Good) (h : Inv c S p) (l : Least c S e) (hp : lx c S e = c.X p)
    (hl : isLeft e = true) (hpass : Pass c S p) (hcb : CollB c S) {A B : List ℕ} (hT : S.sweepLine = A ++ B)
    (h1 : Inv0 c { S with queue := S.queue.erase e, sweepLine := A ++ e :: B, ok := S.ok } p)
    {T : Bool} {inte : ℕ → Bool} {q : ℕ → ℚ → Bool} {ok : ℚ → Prop} (lab : Lab c T inte q ok)
    {oth : ℕ → Bool} (hok : ok (c.X p))
    (hval : ∀ b ∈ S.sweepLine, opB c (S.sid b) = T → ok (lx c S b) ∧
      (oth b = q (S.sid b) (lx c S b) ∨ Pending c S b))
    {A' B' : List ℕ} {x : ℕ} (hx : A ++ e :: B = A' ++ x :: B')
    (hA' : ∀ y, A'.getLast? = some y → opB c (S.sid x) = opB c (S.sid y) → y ∈ S.sweepLine)
    (hxT : opB c (S.sid x) = T) (hxp : lx c S x = c.X p) (hxk : c.K (S.sid x) ≤ c.K (S.sid e)) :
    q (S.sid x) (c.X p) = fromBelow c S inte oth x A'.getLast? ∨
      Pending c { S with queue := S.queue.erase e } x := by
  obtain ⟨he, hr, heT, hop⟩ := h.leftBasic l hp hl
  have srt := h.added_sorted g l hp hl hT h1
  rw [hx] at srt
  have onp : ∀ {y}, IsL S y → lx c S y = c.X p → c.On (S.sid y) p := by
    intro y hy hyp
    have : S.start y = p := (g.eq_iff (h.wf.memP y hy.1) h.pP).mpr hyp
    rw [← this]; exact h.wf.onL y hy
  have xmem : x = e ∨ x ∈ S.sweepLine := by
    have : x ∈ A ++ e :: B := by rw [hx]; simp
    rw [hT]; simp only [List.mem_append, List.mem_cons] at this ⊢; tauto
  have xL : IsL S x := by
    rcases xmem with rfl | k
    · exact he
    · exact h.isL k
  have xr : c.X p < rx c S x := by
    rcases xmem with rfl | k
    · rw [← hp]; exact h.wf.lr x he
    · exact hr x k
  have xN := h.wf.sidLt x xL
  have xs := h.wf.spans xL hxp.le xr
  have xon := onp xL hxp
  have inq : ∀ y ∈ S.queue, IsL S y → lx c S y = c.X p → c.K (S.sid e) ≤ c.K (S.sid y) := by
    intro y hy hyL hyp
    have := l.slopeL hl y hy (isLeft_iff.mpr hyL.2) (by rw [hp]; exact hyp)
    rw [slope_left hl, slope_left (isLeft_iff.mpr hyL.2)] at this
    exact this
  by_cases hpend : Pending c { S with queue := S.queue.erase e } x
  · exact Or.inr hpend
  left
  rw [List.pairwise_append, List.pairwise_cons] at srt
  -- what is below `x` comes before it
  have bel : ∀ j < c.N, Spans c j (c.X p) → BelowE c j (S.sid x) (c.X p) → ∃ y ∈ A', S.sid y = j := by
    intro j hj hs hb
    obtain ⟨y, hy, rfl, m1, m2, m3⟩ := h.span_cases hj hs
    have inL : y = e ∨ y ∈ S.sweepLine → ∃ y' ∈ A', S.sid y' = S.sid y := by
      intro hy'
      have : y ∈ A' ++ x :: B' := by
        rw [← hx]
        rcases hy' with rfl | k
        · simp
        · rw [hT] at k; simp only [List.mem_append, List.mem_cons] at k ⊢; tauto
      rcases List.mem_append.mp this with k | k
      · exact ⟨y, k, rfl⟩
      · rcases List.mem_cons.mp k with rfl | k
        · exact absurd hb belowE_irrefl
        · exact absurd hb (belowE_asymm (srt.2.1.1 y k))
    rcases m3 with m3 | ⟨m3, m4⟩
    · exact inL (Or.inr m3)
    · by_cases hye : y = e
      · exact inL (Or.inl hye)
      · exfalso
        have hk := inq y m3 hy m4
        have hon := onp hy m4
        rcases hb with (k | ⟨_, k⟩) | ⟨k, k1, k2⟩
        · unfold Ctx.On at hon xon; rw [← hon, ← xon] at k; exact lt_irrefl _ k
        · linarith
        · exact hpend ⟨y, (h.qnd.mem_erase_iff).mpr ⟨hye, m3⟩, hy, k, m4.trans hxp.symm, k1, k2⟩
  rcases List.eq_nil_or_concat' A' with rfl | ⟨A'', b, rfl⟩
  · show _ = false
    refine lab.none _ xN hxT _ hok xs fun j hj hs hb => ?_
    obtain ⟨y, hy, _⟩ := bel j hj hs hb
    simp at hy
  · have hgl : (A'' ++ [b]).getLast? = some b := by simp
    rw [hgl]
    have bmem : b = e ∨ b ∈ S.sweepLine := by
      have : b ∈ A ++ e :: B := by rw [hx]; simp
      rw [hT]; simp only [List.mem_append, List.mem_cons] at this ⊢; tauto
    have bL : IsL S b := by
      rcases bmem with rfl | k
      · exact he
      · exact h.isL k
    have bN := h.wf.sidLt b bL
    have bs : Spans c (S.sid b) (c.X p) := by
      rcases bmem with rfl | k
      · exact h.wf.spans bL hp.le (by rw [← hp]; exact h.wf.lr b he)
      · exact h.wf.spans bL (h.lx_le k) (hr b k)
    have hbx : BelowE c (S.sid b) (S.sid x) (c.X p) := srt.2.2 b (by simp) x List.mem_cons_self
    have imm : ∀ k < c.N, Spans c k (c.X p) → BelowE c k (S.sid x) (c.X p) →
        k = S.sid b ∨ BelowE c k (S.sid b) (c.X p) := by
      intro k hk hs hb
      obtain ⟨y, hy, rfl⟩ := bel k hk hs hb
      rcases List.mem_append.mp hy with m | m
      · right
        have := srt.1
        rw [List.pairwise_append] at this
        exact this.2.2 y m b (by simp)
      · left; rw [List.mem_singleton] at m; rw [m]
    show _ = if opB c (S.sid x) = opB c (S.sid b) then oth b else inte (S.sid b)
    by_cases hob : opB c (S.sid x) = opB c (S.sid b)
    · rw [if_pos hob]
      have hbT : b ∈ S.sweepLine := hA' b hgl hob
      have hbT' : opB c (S.sid b) = T := hob ▸ hxT
      rw [lab.same _ xN _ bN hxT hbT' _ hok xs bs hbx imm]
      obtain ⟨okb, hb⟩ := hval b hbT hbT'
      have hkb : c.On (S.sid b) p → c.K (S.sid b) < c.K (S.sid e) := by
        intro hon
        refine lt_of_lt_of_le ?_ hxk
        rcases hbx with (k | ⟨_, k⟩) | ⟨_, k1, k2⟩
        · unfold Ctx.On at hon xon; rw [← hon, ← xon] at k; exact absurd k (lt_irrefl _)
        · exact k
        · unfold opB at hob
          rw [decide_eq_decide] at hob
          exact absurd (hob.mpr k1) k2
      rcases hb with hb | ⟨z, hz, hzL, zc, zl, z1, z2⟩
      · rw [hb]
        rcases eq_or_lt_of_le (h.lx_le hbT) with k | k
        · rw [k]
        · refine (lab.along _ bN hbT' _ _ okb hok (h.wf.inA b bL) k bs.2 fun j hj _ => ?_).symm
          exact h.cls g l hp hl hpass hcb hbT k hkb hj
      · exfalso
        have m1 := h.qge z hz
        have m2 : lx c S b = c.X p := le_antisymm (h.lx_le hbT) (zl ▸ m1)
        have := inq z hz hzL (zl.trans m2)
        have := hkb (onp bL m2)
        rw [zc.1] at *
        linarith
    · rw [if_neg hob]
      exact lab.other _ xN _ bN hxT (fun z => hob (hxT.trans z.symm)) _ hok xs bs hbx imm

end

end Rene.Sweep
