import Verif.Lemmas.Sweep.Advance

/-! The priority queue: the popped event is the least one by point, side, slope and operand. -/

namespace Rene.Sweep
open Rene Spec

variable {c : Ctx}

/-- Slope of the line of an event. -/
def slope (c : Ctx) (S : Lin) (e : ℕ) : ℚ := c.K (S.sid (S.toLeft e))

/-- The order of events in the queue. -/
def qkey (c : Ctx) (S : Lin) (e : ℕ) : ℚ ×ₗ ℕ ×ₗ ℚ ×ₗ ℕ :=
  toLex (lx c S e, toLex (if isLeft e then 1 else 0, toLex (if isLeft e then slope c S e else - slope c S e,
    if S.isFirst e then 1 else 0)))

theorem toLeft_left {S : Lin} {e : ℕ} (h : isLeft e = true) : S.toLeft e = e := by
  unfold Lin.toLeft; rw [if_pos h]

theorem toLeft_right {S : Lin} {e : ℕ} (h : ¬ isLeft e = true) : S.toLeft e = S.opp e := by
  unfold Lin.toLeft; rw [if_neg h]

theorem slope_left {S : Lin} {e : ℕ} (h : isLeft e = true) : slope c S e = c.K (S.sid e) := by
  unfold slope; rw [toLeft_left h]

theorem slope_right {S : Lin} {e : ℕ} (h : ¬ isLeft e = true) : slope c S e = c.K (S.sid (S.opp e)) := by
  unfold slope; rw [toLeft_right h]

theorem slope_cmp {i j : ℕ} {s t : ℚ} (h : c.f i s = c.f j s) (hst : s < t) :
    (c.f i t < c.f j t ↔ c.K i < c.K j) ∧ (c.f i t = c.f j t ↔ c.K i = c.K j) := by
  have e : c.f j t - c.f i t = (c.K j - c.K i) * (t - s) := by
    unfold Ctx.f at *; linear_combination (-1) * h
  have hp : 0 < t - s := by linarith
  constructor
  · constructor
    · intro g
      have : 0 < (c.K j - c.K i) * (t - s) := by linarith
      have := pos_of_mul_pos_left this hp.le
      linarith
    · intro g
      have := mul_pos (by linarith : 0 < c.K j - c.K i) hp
      linarith
  · constructor
    · intro g
      have : (c.K j - c.K i) * (t - s) = 0 := by linarith
      rcases mul_eq_zero.mp this with k | k <;> linarith
    · intro g
      rw [g] at e; linarith

theorem slope_cmp' {i j : ℕ} {s t : ℚ} (h : c.f i s = c.f j s) (hst : t < s) :
    (c.f i t < c.f j t ↔ c.K j < c.K i) ∧ (c.f i t = c.f j t ↔ c.K i = c.K j) := by
  have e : c.f j t - c.f i t = (c.K i - c.K j) * (s - t) := by
    unfold Ctx.f at *; linear_combination (-1) * h
  have hp : 0 < s - t := by linarith
  constructor
  · constructor
    · intro g
      have : 0 < (c.K i - c.K j) * (s - t) := by linarith
      have := pos_of_mul_pos_left this hp.le
      linarith
    · intro g
      have := mul_pos (by linarith : 0 < c.K i - c.K j) hp
      linarith
  · constructor
    · intro g
      have : (c.K i - c.K j) * (s - t) = 0 := by linarith
      rcases mul_eq_zero.mp this with k | k <;> linarith
    · intro g
      rw [g] at e; linarith

section
variable {S : Lin}

/-- The orientation test of the queue keys compares slopes. -/
theorem orient_slope (w : Wf c S) {x y : ℕ} (hx : x < cnt S) (hy : y < cnt S)
    (hs : S.start x = S.start y) (hl : isLeft x = isLeft y) :
    (orient (S.start x) (S.end x) (S.end y) = .collinear ↔ slope c S x = slope c S y) ∧
    (orient (S.start x) (S.end x) (S.end y) = (if isLeft x then .counterclockwise else .clockwise) ↔
      if isLeft x then slope c S x < slope c S y else slope c S y < slope c S x) := by
  have lx' := w.toLeft hx
  have ly' := w.toLeft hy
  by_cases h : isLeft x = true
  · have h' : isLeft y = true := hl ▸ h
    rw [if_pos h, if_pos h, slope_left h, slope_left h']
    rw [toLeft_left h] at lx'
    rw [toLeft_left h'] at ly'
    have o := Ctx.orient_on (q := S.end y) (w.onL x lx') (w.onR x lx') (w.lr x lx')
    have k1 := w.onL x lx'
    have k2 := w.onL y ly'
    have k3 := w.onR y ly'
    unfold Ctx.On at k1 k2 k3
    have k : c.f (S.sid x) (lx c S y) = c.f (S.sid y) (lx c S y) := by
      unfold lx; rw [← k2, ← hs]; exact k1.symm
    have hlr := w.lr y ly'
    have := slope_cmp k hlr
    rw [o.1, o.2.2, k3]
    unfold rx at this
    exact ⟨by rw [eq_comm, this.2], this.1⟩
  · have h' : ¬ isLeft y = true := hl ▸ h
    rw [if_neg h, if_neg h, slope_right h, slope_right h']
    rw [toLeft_right h] at lx'
    rw [toLeft_right h'] at ly'
    have ex : S.end (S.opp x) = S.start x := by unfold Lin.end; rw [w.oppOpp x hx]
    have ey : S.end (S.opp y) = S.start y := by unfold Lin.end; rw [w.oppOpp y hy]
    have k0 := w.onR _ lx'
    have k1 := w.onL _ lx'
    have k2 := w.onL _ ly'
    have k3 := w.onR _ ly'
    have o := Ctx.orient_on_rev (q := S.start (S.opp y)) k1 k0 (w.lr _ lx')
    rw [ex] at o
    unfold Ctx.On at k0 k1 k2 k3
    have k : c.f (S.sid (S.opp x)) (rx c S (S.opp y)) = c.f (S.sid (S.opp y)) (rx c S (S.opp y)) := by
      unfold rx; rw [← k3, ey, ← hs, ← ex]; exact k0.symm
    have hlr := w.lr _ ly'
    have := slope_cmp' k hlr
    have e1 : S.end x = S.start (S.opp x) := rfl
    have e2 : S.end y = S.start (S.opp y) := rfl
    rw [e1, e2, o.2.1, o.2.2, k2]
    unfold lx at this
    exact ⟨by rw [eq_comm, this.2], this.1⟩

theorem queueLt_iff (g : c.Good) (w : Wf c S) {x y : ℕ} (hx : x < cnt S) (hy : y < cnt S) (hxy : x ≠ y) :
    S.queueLt x y = true ↔ qkey c S x < qkey c S y := by
  have mx := w.memP x hx
  have my := w.memP y hy
  have hlt : S.start x < S.start y ↔ lx c S x < lx c S y := g.lt_iff mx my
  have heq : S.start x = S.start y ↔ lx c S x = lx c S y := g.eq_iff mx my
  unfold qkey
  rw [Prod.Lex.toLex_lt_toLex, Prod.Lex.toLex_lt_toLex, Prod.Lex.toLex_lt_toLex]
  simp only
  unfold Lin.queueLt queueKeyLt
  have plt : ∀ p q : Point, p < q ↔ p.x < q.x ∨ (p.x = q.x ∧ p.y < q.y) := fun _ _ => Point.lt_iff
  by_cases h1 : (S.start x).x ≠ (S.start y).x
  · rw [if_pos h1, decide_eq_true_eq, ← hlt, ← heq, plt]
    have : S.start x ≠ S.start y := fun e => h1 (by rw [e])
    simp [h1, this]
  · rw [if_neg h1]
    push Not at h1
    by_cases h2 : (S.start x).y ≠ (S.start y).y
    · rw [if_pos h2, decide_eq_true_eq, ← hlt, ← heq, plt]
      have : S.start x ≠ S.start y := fun e => h2 (by rw [e])
      simp [h1, this]
    · rw [if_neg h2]
      push Not at h2
      have hs : S.start x = S.start y := Point.ext' h1 h2
      have e : lx c S x = lx c S y := heq.mp hs
      rw [e]
      simp only [lt_irrefl, false_or, true_and]
      by_cases h3 : isLeft x ≠ isLeft y
      · rw [if_pos h3]
        cases hlx : isLeft x <;> cases hly : isLeft y <;> simp_all
      · rw [if_neg h3]
        push Not at h3
        obtain ⟨o1, o2⟩ := orient_slope w hx hy hs h3
        have qa := w.queueAssert hx hy hxy
        unfold Lin.queueAssert at qa
        by_cases h4 : orient (S.start x) (S.end x) (S.end y) = .collinear
        · rw [if_pos h4]
          rw [decide_eq_true hs, decide_eq_true h3, decide_eq_true h4] at qa
          have hne : S.isFirst x ≠ S.isFirst y := by simpa using qa
          rw [o1.mp h4, h3]
          cases h5 : S.isFirst x <;> cases h6 : S.isFirst y <;> simp_all
        · rw [if_neg h4, decide_eq_true_eq, o2]
          have hne : slope c S x ≠ slope c S y := fun z => h4 (o1.mpr z)
          rw [h3]
          cases isLeft y
          · have : ¬ - slope c S x = - slope c S y := fun z => hne (by linarith)
            simp [this]
          · simp [hne]

theorem leastFrom_spec {α : Type} [LinearOrder α] (key : ℕ → α) (lt : ℕ → ℕ → Bool) :
    ∀ (l : List ℕ) (b : ℕ), (∀ x ∈ b :: l, ∀ y ∈ b :: l, x ≠ y → (lt x y = true ↔ key x < key y)) →
    Lin.leastFrom lt b l ∈ b :: l ∧ ∀ x ∈ b :: l, key (Lin.leastFrom lt b l) ≤ key x := by
  intro l
  induction l with
  | nil => intro b _; simp [Lin.leastFrom]
  | cons a l ih =>
    intro b h
    unfold Lin.leastFrom
    by_cases hab : a = b
    · subst hab
      rw [ite_self]
      obtain ⟨k1, k2⟩ := ih a (fun x hx y hy => h x (List.mem_cons_of_mem _ hx) y (List.mem_cons_of_mem _ hy))
      refine ⟨List.mem_cons_of_mem _ k1, fun x hx => ?_⟩
      rcases List.mem_cons.mp hx with rfl | hx
      · exact k2 _ List.mem_cons_self
      · exact k2 _ hx
    · have hl := h a (by simp) b (by simp) hab
      by_cases hlt : lt a b = true
      · rw [if_pos hlt]
        obtain ⟨k1, k2⟩ := ih a (fun x hx y hy => h x (List.mem_cons_of_mem _ hx) y (List.mem_cons_of_mem _ hy))
        refine ⟨List.mem_cons_of_mem _ k1, fun x hx => ?_⟩
        rcases List.mem_cons.mp hx with rfl | hx
        · exact (k2 a List.mem_cons_self).trans (hl.mp hlt).le
        · exact k2 _ hx
      · rw [if_neg hlt]
        have sub : ∀ x ∈ b :: l, x ∈ b :: a :: l := by
          intro x hx
          rcases List.mem_cons.mp hx with rfl | hx
          · simp
          · simp [hx]
        obtain ⟨k1, k2⟩ := ih b (fun x hx y hy => h x (sub x hx) y (sub y hy))
        refine ⟨sub _ k1, fun x hx => ?_⟩
        rcases List.mem_cons.mp hx with rfl | hx
        · exact k2 _ List.mem_cons_self
        · rcases List.mem_cons.mp hx with rfl | hx
          · exact (k2 b List.mem_cons_self).trans (not_lt.mp (fun z => hlt (hl.mpr z)))
          · exact k2 _ (List.mem_cons_of_mem _ hx)

theorem popEvent_spec (g : c.Good) (w : Wf c S) (hq : ∀ e ∈ S.queue, e < cnt S) {e : ℕ}
    (h : S.popEvent = some e) : e ∈ S.queue ∧ ∀ x ∈ S.queue, qkey c S e ≤ qkey c S x := by
  unfold Lin.popEvent at h
  split at h
  · simp at h
  · rename_i x rest he
    rw [Option.some.injEq] at h
    subst h
    rw [he]
    refine leastFrom_spec (qkey c S) _ rest x (fun a ha b hb hab => ?_)
    rw [← he] at ha hb
    exact queueLt_iff g w (hq a ha) (hq b hb) hab

theorem popEvent_none (h : S.popEvent = none) : S.queue = [] := by
  unfold Lin.popEvent at h
  split at h
  · assumption
  · simp at h

/-- What the order gives. -/
structure Least (c : Ctx) (S : Lin) (e : ℕ) : Prop where
  mem : e ∈ S.queue
  le : ∀ x ∈ S.queue, lx c S e ≤ lx c S x
  right : isLeft e = true → ∀ x ∈ S.queue, lx c S x = lx c S e → isLeft x = true
  slope : ¬ isLeft e = true → ∀ x ∈ S.queue, ¬ isLeft x = true → lx c S x = lx c S e →
    Sweep.slope c S x ≤ Sweep.slope c S e
  first : ¬ isLeft e = true → ∀ x ∈ S.queue, ¬ isLeft x = true → lx c S x = lx c S e →
    Sweep.slope c S x = Sweep.slope c S e → S.isFirst e = true → S.isFirst x = true
  slopeL : isLeft e = true → ∀ x ∈ S.queue, isLeft x = true → lx c S x = lx c S e →
    Sweep.slope c S e ≤ Sweep.slope c S x
  firstL : isLeft e = true → ∀ x ∈ S.queue, isLeft x = true → lx c S x = lx c S e →
    Sweep.slope c S x = Sweep.slope c S e → S.isFirst e = true → S.isFirst x = true

theorem least_of_pop (g : c.Good) (w : Wf c S) (hq : ∀ e ∈ S.queue, e < cnt S) {e : ℕ}
    (h : S.popEvent = some e) : Least c S e := by
  obtain ⟨h1, h2⟩ := popEvent_spec g w hq h
  have key : ∀ x ∈ S.queue, lx c S e < lx c S x ∨ (lx c S e = lx c S x ∧
      ((if isLeft e then 1 else 0) < (if isLeft x then 1 else 0) ∨
        ((if isLeft e then 1 else 0) = (if isLeft x then 1 else 0) ∧
        ((if isLeft e then slope c S e else - slope c S e) < (if isLeft x then slope c S x else - slope c S x) ∨
          ((if isLeft e then slope c S e else - slope c S e) = (if isLeft x then slope c S x else - slope c S x) ∧
          (if S.isFirst e then 1 else 0) ≤ (if S.isFirst x then 1 else 0)))))) := by
    intro x hx
    have := h2 x hx
    unfold qkey at this
    rw [Prod.Lex.toLex_le_toLex, Prod.Lex.toLex_le_toLex, Prod.Lex.toLex_le_toLex] at this
    exact this
  refine ⟨h1, fun x hx => ?_, fun hl x hx hxe => ?_, fun hl x hx hxl hxe => ?_,
    fun hl x hx hxl hxe hs hf => ?_, fun hl x hx hxl hxe => ?_, fun hl x hx hxl hxe hs hf => ?_⟩
  · rcases key x hx with k | ⟨k, _⟩
    · exact k.le
    · exact k.le
  · have := key x hx
    rw [hxe] at this
    cases hlx : isLeft x
    · simp [hl, hlx] at this
    · rfl
  · have := key x hx
    rw [hxe] at this
    simp [hl, hxl] at this
    rcases this with k | k
    · exact k.le
    · exact k.1.ge
  · have := key x hx
    rw [hxe, hs] at this
    simp [hl, hxl, hf] at this
    by_contra z
    rw [if_neg z] at this
    exact absurd this (by decide)
  · have := key x hx
    rw [hxe] at this
    simp [hl, hxl] at this
    rcases this with k | k
    · exact k.le
    · exact k.1.le
  · have := key x hx
    rw [hxe, hs] at this
    simp [hl, hxl, hf] at this
    by_contra z
    rw [if_neg z] at this
    exact absurd this (by decide)

end
end Rene.Sweep
