import Verif.Lemmas.BO.StepR

/-! Processing a left event before the first bad contact. -/

namespace Rene.BO
open Rene Spec Sweep

variable {c : Ctx} {β : ℚ} {R R' : Reg} {p : Point} {ids : List ℕ}

theorem span_eq {P : ℕ → Bool} {A B : List ℕ} (hA : ∀ x ∈ A, P x = true) (hB : ∀ x ∈ B, P x = false) :
    (A ++ B).takeWhile P = A ∧ (A ++ B).dropWhile P = B := by
  induction A with
  | nil =>
    cases B with
    | nil => simp
    | cons b B =>
      have := hB b (by simp)
      simp [List.takeWhile_cons, List.dropWhile_cons, this]
  | cons a A ih =>
    have ha := hA a (by simp)
    obtain ⟨k1, k2⟩ := ih (fun x hx => hA x (List.mem_cons_of_mem _ hx))
    simp [List.takeWhile_cons, List.dropWhile_cons, ha, k1, k2]

/-- The comparison of collinear events. -/
theorem lt_coll {Z : Reg} (w : WfB c Z.lin) {x y : ℕ} (hx : IsL Z.lin x) (hy : IsL Z.lin y) (hc : CollE c Z.lin x y) :
    Z.lt x y = if (Z.lin.start x).y = (Z.lin.start y).y then
      if (Z.lin.start x).x ≠ (Z.lin.start y).x then decide ((Z.lin.start x).x < (Z.lin.start y).x)
      else if (Z.lin.end x).y ≠ (Z.lin.end y).y then decide ((Z.lin.end x).y < (Z.lin.end y).y)
      else decide ((Z.lin.end x).x < (Z.lin.end y).x)
    else decide ((Z.lin.start x).y < (Z.lin.start y).y) := by
  obtain ⟨_, _, s3⟩ := Ctx.orient_on (q := Z.lin.start y) (w.onL x hx) (w.onR x hx) (w.lr x hx)
  obtain ⟨_, _, e3⟩ := Ctx.orient_on (q := Z.lin.end y) (w.onL x hx) (w.onR x hx) (w.lr x hx)
  have k1 := s3.mpr ((w.onL y hy).coll hc.symm)
  have k2 := e3.mpr ((w.onR y hy).coll hc.symm)
  unfold Reg.lt keyLt
  have S0 : Z.start x = Z.lin.start x := rfl
  have S1 : Z.end x = Z.lin.end x := rfl
  have S2 : Z.start y = Z.lin.start y := rfl
  have S3 : Z.end y = Z.lin.end y := rfl
  simp only [S0, S1, S2, S3, k1, k2, if_true, ne_eq, not_true, if_false]

theorem lt_coll_asymm {Z : Reg} (w : WfB c Z.lin) {x y : ℕ} (hx : IsL Z.lin x) (hy : IsL Z.lin y)
    (hc : CollE c Z.lin x y) (h : Z.lt x y = true) : Z.lt y x = false := by
  rw [lt_coll w hx hy hc] at h
  rw [lt_coll w hy hx hc.symm]
  generalize Z.lin.start x = a at *
  generalize Z.lin.start y = b at *
  generalize Z.lin.end x = a' at *
  generalize Z.lin.end y = b' at *
  grind

theorem lt_coll_eq {Z : Reg} (w : WfB c Z.lin) {x y : ℕ} (hx : IsL Z.lin x) (hy : IsL Z.lin y)
    (hc : CollE c Z.lin x y) (h1 : Z.lt x y = false) (h2 : Z.lt y x = false) :
    Z.lin.start x = Z.lin.start y ∧ Z.lin.end x = Z.lin.end y := by
  rw [lt_coll w hx hy hc] at h1
  rw [lt_coll w hy hx hc.symm] at h2
  rw [Point.eq_iff, Point.eq_iff]
  generalize Z.lin.start x = a at *
  generalize Z.lin.start y = b at *
  generalize Z.lin.end x = a' at *
  generalize Z.lin.end y = b' at *
  grind

/-- Shortening the longer one of two collinear events with a common start keeps their order. -/
theorem lt_coll_keep {Z Z' : Reg} (w : WfB c Z.lin) (w' : WfB c Z'.lin) {x y : ℕ} (hx : IsL Z.lin x) (hy : IsL Z.lin y)
    (hx' : IsL Z'.lin x) (hy' : IsL Z'.lin y) (hc : CollE c Z.lin x y) (sx : Z'.lin.sid x = Z.lin.sid x)
    (sy : Z'.lin.sid y = Z.lin.sid y) (ax : Z'.lin.start x = Z.lin.start x) (ay : Z'.lin.start y = Z.lin.start y)
    (by' : Z'.lin.end y = Z.lin.end y) (h1 : rx c Z.lin y < rx c Z'.lin x) (h2 : rx c Z'.lin x ≤ rx c Z.lin x)
    (hs : Z.lin.start x = Z.lin.start y) (h : Z.lt x y = true) : Z'.lt x y = true := by
  have hc' : CollE c Z'.lin x y := by unfold CollE; rw [sx, sy]; exact hc
  rw [lt_coll w hx hy hc] at h
  rw [lt_coll w' hx' hy' hc']
  rw [ax, ay, by']
  rw [hs] at h ⊢
  simp only [if_true, ne_eq, not_true, if_false] at h ⊢
  have o1 := w.onR x hx
  have o2 := (w.onR y hy).coll hc.symm
  have o3 := w'.onR x hx'
  rw [sx] at o3
  unfold rx at h1 h2
  unfold Ctx.On Ctx.f at o1 o2 o3
  generalize Z.lin.end x = a at *
  generalize Z.lin.end y = b at *
  generalize Z'.lin.end x = d at *
  generalize c.K (Z.lin.sid x) = K at *
  have e1 : a.y - b.y = K * (c.X a - c.X b) := by linear_combination o1 - o2
  have e2 : d.y - b.y = K * (c.X d - c.X b) := by linear_combination o3 - o2
  by_cases hab : a.y = b.y
  · exfalso
    simp only [hab, not_true, if_false] at h
    rw [decide_eq_true_iff] at h
    unfold Ctx.X at h1 h2
    have hk : K = 0 := by
      rw [hab, sub_self] at e1
      rcases mul_eq_zero.mp e1.symm with k | k
      · exact k
      · unfold Ctx.X at k; linarith
    rw [hk, zero_mul] at e2
    have e4 : d.y = b.y := by linarith
    rw [hab, e4] at h2
    rw [e4] at h1
    linarith
  · rw [if_pos hab, decide_eq_true_iff] at h
    have hk : K < 0 := by
      by_contra k
      have := mul_nonneg (not_lt.mp k) (by linarith : 0 ≤ c.X a - c.X b)
      linarith
    have : d.y < b.y := by
      have := mul_neg_of_neg_of_pos hk (by linarith : 0 < c.X d - c.X b)
      linarith
    rw [if_pos this.ne, decide_eq_true_iff]
    exact this

section
variable (gd : c.Good0) (hβ : ∀ i j t, Bad c i j t → β ≤ t)
include gd hβ

/-- An equal event on the line is a bad contact. -/
theorem left_find {e q : ℕ} (h : Base c β R p ids) (he : IsL R.lin e) (hle : lx c R.lin e = c.X p)
    (hs : e ∉ R.lin.sweepLine) (hf : R.find e = some q) : Doom c β (R.processLeft e) p ids := by
  obtain ⟨hq1, k1, k2⟩ := find_mem hf
  obtain ⟨ql, _⟩ := h.sl q hq1
  have hne : q ≠ e := fun g => hs (g ▸ hq1)
  obtain ⟨hsid, bad⟩ := bad_of_equal h.wf ql he hne k1 k2
  have g := hβ _ _ _ bad
  have hp := h.pβ
  have ee : lx c R.lin e = β := by linarith
  have eq : lx c R.lin q = β := by rw [← ee]; unfold lx; rw [k1]
  obtain ⟨b, d⟩ := base_merge h ql he ⟨q, ql, rfl, eq⟩ ⟨e, he, rfl, ee⟩ hsid
  have : R.processLeft e = R.merge q e := by unfold Reg.processLeft; rw [hf]
  rw [this]
  exact Or.inr d

/-- The second intersection test of a left event. -/
def leftTwo (X : Reg) (e : ℕ) : Reg :=
  match X.above e with
  | some a => X.detectIntersection e a
  | none => X

theorem leftTwo_doom {e : ℕ} (h : Base c β R p ids) (he : IsL R.lin e) (hle : lx c R.lin e ≤ c.X p)
    (d : Doom c β R p ids) : (leftTwo R e).lin.ok = false ∨ Doom c β (leftTwo R e) p ids := by
  unfold leftTwo
  cases ha : R.above e with
  | none => exact Or.inr d
  | some a =>
    obtain ⟨ha1, _⟩ := above_mem ha
    obtain ⟨l1, l2⟩ := h.sl a ha1
    rcases res_detect gd hβ h he l1 hle l2 with k | ⟨r, _⟩
    · exact Or.inl k
    · exact Or.inr (r.doom h d)

end


section
variable {e : ℕ} (gd : c.Good0) (hb : Base c β R p ids) (h : Clean c β R p) (low : Low c R e) (hp : lx c R.lin e = c.X p)
  (h0 : e % 2 = 0)
include hb h low hp h0

theorem left_lt : e < 2 * c.N := by
  by_contra k
  have := h.new e (hb.qlt e low.mem) (not_lt.mp k)
  have := hb.pβ
  linarith

theorem left_isL : IsL R.lin e := ⟨hb.qlt e low.mem, h0⟩

theorem left_rx {x : ℕ} (hx : x ∈ R.lin.sweepLine) : c.X p < rx c R.lin x := by
  obtain ⟨⟨k1, k2⟩, k3, k4⟩ := (h.tmem x).mp hx
  have pb := hb.pβ
  rcases h.rx_or hb k1 k2 with k | k
  · refine lt_of_le_of_ne (h.le_rx' hb hx) fun g => ?_
    rw [k, ← h.lxB hb k1 k2] at g
    have := low.right h0 _ k4 (by rw [hp, g])
    omega
  · linarith

include gd

theorem left_on : c.f (R.lin.sid e) (c.X p) = p.y := by
  have hs : R.lin.start e = p := (gd.eq_iff (hb.wf.memP e (hb.qlt e low.mem)) hb.pP).mpr hp
  have := hb.wf.onL e ⟨hb.qlt e low.mem, h0⟩
  unfold Ctx.On at this
  rw [hs] at this
  exact this.symm

omit gd in
theorem left_height {x y : ℕ} (hx : x ∈ R.lin.sweepLine) (hy : y ∈ R.lin.sweepLine) (hxy : x ≠ y)
    (fx : c.f (R.lin.sid x) (c.X p) = p.y) (fy : c.f (R.lin.sid y) (c.X p) = p.y) :
    lx c R.lin x = c.X p ∧ lx c R.lin y = c.X p := by
  have rx1 := left_rx hb h low hp h0 hx
  have ry1 := left_rx hb h low hp h0 hy
  obtain ⟨lx1, lx2⟩ := hb.sl x hx
  obtain ⟨ly1, ly2⟩ := hb.sl y hy
  rcases h.v with v | v
  · exfalso
    obtain ⟨⟨k1, k2⟩, _⟩ := (h.tmem x).mp hx
    obtain ⟨⟨k3, k4⟩, _⟩ := (h.tmem y).mp hy
    have v1 := v x hx
    have v2 := v y hy
    have b1 := hb.wf.inB x lx1
    have b2 := hb.wf.inB y ly1
    rw [h.sid hb k1 k2] at b1 fx
    rw [h.sid hb k3 k4] at b2 fy
    rw [h.lxA hb k1 k2] at v1
    rw [h.lxA hb k3 k4] at v2
    exact h.nab (x / 2) (by omega) (y / 2) (by omega) (by omega) v1 (by linarith) v2 (by linarith) (fx.trans fy.symm)
  · exact ⟨by by_contra g; exact v x hx fx ⟨lt_of_le_of_ne lx2 g, rx1⟩,
      by by_contra g; exact v y hy fy ⟨lt_of_le_of_ne ly2 g, ry1⟩⟩

theorem left_ab {x : ℕ} (hx : x ∈ R.lin.sweepLine) : (Ab c R.lin x e ↔ c.f (R.lin.sid x) (c.X p) < p.y ∨
      (c.f (R.lin.sid x) (c.X p) = p.y ∧ c.K (R.lin.sid x) < c.K (R.lin.sid e))) ∧
    (Ab c R.lin e x ↔ p.y < c.f (R.lin.sid x) (c.X p) ∨
      (c.f (R.lin.sid x) (c.X p) = p.y ∧ c.K (R.lin.sid e) < c.K (R.lin.sid x))) := by
  have on := left_on gd hb h low hp h0
  have l := (hb.sl x hx).2
  unfold Ab AboveR
  rw [hp, max_eq_right l, max_eq_left l, on]
  refine ⟨Iff.rfl, ?_⟩
  constructor
  · rintro (k | ⟨k, k'⟩)
    · exact Or.inl k
    · exact Or.inr ⟨k.symm, k'⟩
  · rintro (k | ⟨k, k'⟩)
    · exact Or.inl k
    · exact Or.inr ⟨k.symm, k'⟩

theorem left_vals : R.lin.sweepLine.Pairwise (fun a b => c.f (R.lin.sid a) (c.X p) ≤ c.f (R.lin.sid b) (c.X p)) :=
  values h.sorted h.chain (fun x hx => (hb.sl x hx).2) (fun _ hx => (left_rx hb h low hp h0 hx).le)

/-- Elements before one which is below the new event are below it, too. -/
theorem left_prefix : R.lin.sweepLine.Pairwise (fun x y => Ab c R.lin y e → Ab c R.lin x e) := by
  have := (left_vals gd hb h low hp h0).and (h.sorted.and h.tnd)
  refine this.imp_of_mem fun {x y} hx hy k hy1 => ?_
  obtain ⟨k1, k2, k3⟩ := k
  rw [(left_ab gd hb h low hp h0 hx).1]
  rw [(left_ab gd hb h low hp h0 hy).1] at hy1
  rcases hy1 with g | ⟨g, g'⟩
  · left; linarith
  · rw [g] at k1
    rcases eq_or_lt_of_le k1 with m | m
    · obtain ⟨e1, e2⟩ := left_height hb h low hp h0 hx hy k3 m g
      unfold Ab at k2
      rw [e1, e2, max_self] at k2
      rcases k2 with k2 | ⟨_, k2⟩
      · linarith
      · exact Or.inr ⟨m, by linarith⟩
    · exact Or.inl m

/-- The state after the insertion, for an ordered insertion. -/
theorem left_core {A B : List ℕ} (hT : R.lin.sweepLine = A ++ B) (hA : ∀ x ∈ A, Ab c R.lin x e)
    (hB : ∀ x ∈ B, Ab c R.lin e x) {Z : Reg} (hZ : Z.lin = { (pop R e).lin with sweepLine := A ++ e :: B }) :
    Core c β Z p := by
  have he := left_lt hb h low hp h0
  have big := hb.wf.big
  have mq := fun x => mem_pop (e := e) (x := x) hb.qnd
  have el := left_isL hb h low hp h0
  have eT : e ∉ R.lin.sweepLine := fun k => hb.slq e k low.mem
  obtain ⟨zl, zm⟩ := Z
  simp only at hZ
  subst hZ
  have mT : ∀ x, x ∈ A ++ e :: B ↔ x = e ∨ x ∈ R.lin.sweepLine := by
    intro x; rw [hT]; simp only [List.mem_append, List.mem_cons]; tauto
  refine ⟨h.new, h.opp, fun x hx hxq => ?_, fun x => ?_, ?_, ?_, ?_⟩
  · by_cases g : x = e
    · rw [g]; exact hp.le
    · exact h.ple x hx (fun k => hxq ((mq x).mpr ⟨g, k⟩))
  · show x ∈ A ++ e :: B ↔ (x < 2 * c.N ∧ x % 2 = 0) ∧ x ∉ (pop R e).lin.queue ∧ x + 1 ∈ (pop R e).lin.queue
    rw [mT, mq, mq]
    constructor
    · rintro (rfl | hx)
      · refine ⟨⟨he, h0⟩, fun k => k.1 rfl, by omega, ?_⟩
        by_contra k
        have k1 := h.ple (x + 1) (by omega) k
        rw [h.lxB hb he h0] at k1
        have k2 := gd.lt (x / 2) (by omega)
        rw [← h.lxA hb he h0] at k2
        linarith
      · obtain ⟨k1, k2, k3⟩ := (h.tmem x).mp hx
        exact ⟨k1, fun k => k2 k.2, by omega, k3⟩
    · rintro ⟨k1, k2, k3, k4⟩
      by_cases g : x = e
      · exact Or.inl g
      · exact Or.inr ((h.tmem x).mpr ⟨k1, fun k => k2 ⟨g, k⟩, k4⟩)
  · have := h.tnd
    show (A ++ e :: B).Nodup
    rw [List.nodup_middle, List.nodup_cons]
    rw [hT] at this eT
    exact ⟨eT, this⟩
  · have := h.sorted
    rw [hT, List.pairwise_append] at this
    show List.Pairwise (Ab c R.lin) (A ++ e :: B)
    rw [List.pairwise_append, List.pairwise_cons]
    refine ⟨this.1, ⟨hB, this.2.1⟩, fun x hx y hy => ?_⟩
    rcases List.mem_cons.mp hy with rfl | hy
    · exact hA x hx
    · exact this.2.2 x hx y hy
  · rintro _ x hx hx1
    obtain ⟨k1, k2⟩ := (mq x).mp hx
    refine lt_of_le_of_ne (hb.qge x k2) fun g => ?_
    have := low.right h0 x k2 (by rw [hp]; exact g.symm)
    omega

end

end Rene.BO
