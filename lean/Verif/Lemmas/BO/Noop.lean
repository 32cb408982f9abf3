import Verif.Lemmas.BO.Init

/-! The validity sweep of noded segments: nothing is found. -/

namespace Rene.BO
open Rene Spec Sweep

variable {c : Ctx} {β : ℚ} {R R' : Reg} {p : Point} {ids : List ℕ} {a b : ℕ}

theorem detect_noop (gd : c.Good0) (w : WfB c R.lin) (nb : ∀ i j t, ¬ Bad c i j t) (hb : IsL R.lin b) (ha : IsL R.lin a)
    (hs : R.lin.sid b ≠ R.lin.sid a) : R.detect b a = R := by
  have out := detect_cases gd w hb ha
  have la := w.lr a ha
  have lb := w.lr b hb
  have fe : ∀ {m : Point}, c.On (R.lin.sid b) m → c.On (R.lin.sid a) m →
      c.f (R.lin.sid b) (c.X m) = c.f (R.lin.sid a) (c.X m) := by
    intro m o1 o2; unfold Ctx.On at o1 o2; rw [← o1, ← o2]
  have uvp : ∀ {u v : ℕ}, (u = a ∧ v = b) ∨ (u = b ∧ v = a) → CollE c R.lin b a → Int c R.lin u (lx c R.lin v) → False := by
    rintro u v (⟨rfl, rfl⟩ | ⟨rfl, rfl⟩) hc hu
    · exact nb _ _ _ (bad_of_coll w ha hb hs.symm hc.symm hu.1.le hu.2)
    · exact nb _ _ _ (bad_of_coll w hb ha hs hc hu.1.le hu.2)
  generalize hX : R.detect b a = X at out ⊢
  cases out with
  | none h1 h2 => rfl
  | mid hc hm ob oa l r hbI na => exact absurd (bad_of_int w hb ha hs (fe ob oa) hbI l r) (nb _ _ _)
  | above hc hm ob oa l r haI na => exact absurd (bad_of_int w ha hb hs.symm (fe ob oa).symm haI l r) (nb _ _ _)
  | both hc hm ob oa hbI haI => exact absurd (bad_of_int w hb ha hs (fe ob oa) hbI haI.1.le haI.2.le) (nb _ _ _)
  | longer hc hst =>
    exfalso
    have e : lx c R.lin a = lx c R.lin b := by unfold lx; rw [hst]
    exact nb _ _ _ (bad_of_coll w hb ha hs hc e.ge (by rw [e]; exact lb))
  | same huv hc hu he => exact (uvp huv hc hu).elim
  | inside huv hc hu hu' => exact (uvp huv hc hu).elim
  | overlap huv hc hu hv => exact (uvp huv hc hu).elim

theorem asserts_noop (w : WfB c R.lin) (hb : IsL R.lin b) (ha : IsL R.lin a)
    (hne : ¬ (R.lin.start a = R.lin.start b ∧ R.lin.end a = R.lin.end b)) (hR : R.detect b a = R) :
    R.detectAsserts b a = true := by
  unfold Reg.detectAsserts
  simp only
  unfold Reg.detect at hR
  simp only at hR
  have S0 : R.start a = R.lin.start a := rfl
  have S1 : R.end a = R.lin.end a := rfl
  have S2 : R.start b = R.lin.start b := rfl
  have S3 : R.end b = R.lin.end b := rfl
  rw [S0, S1, S2, S3] at hR ⊢
  by_cases h12 : orient (R.lin.end b) (R.lin.start b) (R.lin.start a) = orient (R.lin.end b) (R.lin.start b) (R.lin.end a)
  · rw [if_pos h12]
    split
    · rw [decide_eq_true_iff]; exact fun k k' => hne ⟨k, k'⟩
    · rfl
  rw [if_neg h12] at hR ⊢
  by_cases h1 : orient (R.lin.end b) (R.lin.start b) (R.lin.start a) = .collinear
  · rw [if_pos h1]
  rw [if_neg h1] at hR ⊢
  by_cases h2 : orient (R.lin.end b) (R.lin.start b) (R.lin.end a) = .collinear
  · rw [if_pos h2]
  rw [if_neg h2] at hR ⊢
  by_cases h3 : orient (R.lin.start a) (R.lin.end a) (R.lin.start b) = .collinear
  · rw [if_pos h3, decide_eq_true_iff]
    intro h4
    have la := w.lr a ha
    have lb := w.lr b hb
    obtain ⟨_, _, s3⟩ := Ctx.orient_on_rev (q := R.lin.start a) (w.onL b hb) (w.onR b hb) lb
    obtain ⟨_, _, e3⟩ := Ctx.orient_on_rev (q := R.lin.end a) (w.onL b hb) (w.onR b hb) lb
    obtain ⟨_, _, t3⟩ := Ctx.orient_on (q := R.lin.start b) (w.onL a ha) (w.onR a ha) la
    obtain ⟨_, _, u3⟩ := Ctx.orient_on (q := R.lin.end b) (w.onL a ha) (w.onR a ha) la
    have o1 := t3.mp h3
    have o2 := u3.mp h4
    have hc : c.Coll (R.lin.sid b) (R.lin.sid a) := by
      have k1 := w.onL b hb
      have k2 := w.onR b hb
      unfold Ctx.On at k1 k2
      exact Ctx.coll_of_two lb.ne (by unfold lx; rw [← k1, o1]) (by unfold rx; rw [← k2, o2])
    have k1 := (w.onL a ha).coll hc.symm
    have k2 := (w.onR a ha).coll hc.symm
    exact h12 ((s3.mpr k1).trans (e3.mpr k2).symm)
  rw [if_neg h3] at hR ⊢
  by_cases h4 : orient (R.lin.start a) (R.lin.end a) (R.lin.end b) = .collinear
  · rw [if_pos h4]
  rw [if_neg h4] at hR ⊢
  by_cases h5 : orient (R.lin.start a) (R.lin.end a) (R.lin.start b) ≠ orient (R.lin.start a) (R.lin.end a) (R.lin.end b)
  · exfalso
    rw [if_pos h5] at hR
    generalize toSegmentsIntersection (R.lin.start a) (R.lin.end a) (R.lin.start b) (R.lin.end b) = m at hR
    have l1 : (R.divideByMidpoint b m).lin.endpoints.length = R.lin.endpoints.length + 2 := by
      simp [Reg.divideByMidpoint, Reg.divide, Reg.push, Lin.divide]
    have l2 : ∀ (Z : Reg) (e : ℕ) (q : Point), Z.lin.endpoints.length ≤ (Z.divideCheckingAbove e q).lin.endpoints.length := by
      intro Z e q
      unfold Reg.divideCheckingAbove
      cases Z.above e with
      | none => simp [Reg.divideByMidpoint, Reg.divide, Reg.push, Lin.divide]
      | some x =>
        simp only
        split <;> simp [Reg.divideByMidpoint, Reg.divide, Reg.push, Lin.divide, Reg.merge, Reg.remove]
    have := l2 (R.divideByMidpoint b m) a m
    rw [hR] at this
    omega
  · rw [if_neg h5]

theorem detectIntersection_noop (gd : c.Good0) (w : WfB c R.lin) (nb : ∀ i j t, ¬ Bad c i j t) (hb : IsL R.lin b)
    (ha : IsL R.lin a) (hs : R.lin.sid b ≠ R.lin.sid a) : R.detectIntersection b a = R := by
  have h := detect_noop gd w nb hb ha hs
  have hne : ¬ (R.lin.start a = R.lin.start b ∧ R.lin.end a = R.lin.end b) := by
    rintro ⟨k1, k2⟩
    have hba : b ≠ a := fun g => hs (by rw [g])
    exact nb _ _ _ (bad_of_equal w hb ha hba k1.symm k2.symm).2
  have h2 := asserts_noop w hb ha hne h
  unfold Reg.detectIntersection
  simp only [h, h2, Bool.and_true]

/-! ### One iteration -/

/-- Everything is before the (fictive) bad contact. -/
structure Far (c : Ctx) (β : ℚ) : Prop where
  nb : ∀ i j t, ¬ Bad c i j t
  far : ∀ q ∈ c.P, c.X q < β

section
variable (gd : c.Good0) (fr : Far c β) (hb : Base c β R p ids) (h : Clean c β R p)
include fr hb

theorem Far.no_doom : ¬ Doom c β R p ids := by
  have l : ∀ e < cnt R.lin, lx c R.lin e ≠ β := fun e he => (fr.far _ (hb.wf.memP e he)).ne
  have pp : c.X p ≠ β := (fr.far _ hb.pP).ne
  rintro (d | ⟨z, hz, k⟩)
  · rcases d with ⟨e, he, _, _, _, k, _⟩ | ⟨k, _⟩ | ⟨k, _⟩
    · exact l e (hb.qlt e he) k
    · exact pp k
    · exact pp k
  · obtain ⟨⟨e, he, _, k2⟩, _⟩ := hb.mc z hz k
    exact l e he.1 k2

theorem Far.parent {z : ℕ} (hz : z < c.N) : R.parent z = z := by
  by_contra k
  exact fr.no_doom hb (Or.inr ⟨z, hz, k⟩)

include h in
theorem Far.cnt : cnt R.lin = 2 * c.N := by
  have big := hb.wf.big
  by_contra k
  have := h.new (2 * c.N) (by omega) le_rfl
  have := fr.far _ (hb.wf.memP (2 * c.N) (by omega))
  unfold lx at *
  linarith

include h in
theorem Far.sid {x : ℕ} (hx : IsL R.lin x) : R.lin.sid x = x / 2 :=
  h.sid hb (by rw [← fr.cnt hb h]; exact hx.1) hx.2

include gd h in
theorem far_left {e : ℕ} (low : Low c R e) (hp : lx c R.lin e = c.X p) (h0 : e % 2 = 0) :
    (pop R e).processLeft e = (pop R e).add e := by
  obtain ⟨b0, _⟩ := base_pop hb low.mem hp
  have el := left_isL hb h low hp h0
  have eT : e ∉ R.lin.sweepLine := fun k => hb.slq e k low.mem
  have hf : (pop R e).find e = none := by
    cases hf : (pop R e).find e with
    | none => rfl
    | some q =>
      exfalso
      obtain ⟨hq1, k1, k2⟩ := find_mem hf
      exact fr.nb _ _ _ (bad_of_equal b0.wf (b0.sl q hq1).1 el (fun g => eT (g ▸ hq1)) k1 k2).2
  obtain ⟨b1, mv1⟩ := base_add b0 (e := e) el hp.le (fun k => ((mem_pop hb.qnd).mp k).1 rfl)
  have sids : ∀ x y, IsL R.lin x → IsL R.lin y → x ≠ y → R.lin.sid x ≠ R.lin.sid y := by
    intro x y hx hy hxy
    rw [fr.sid hb h hx, fr.sid hb h hy]
    have := hx.2; have := hy.2; omega
  rw [processLeft_none hf]
  have one : leftOne (pop R e) e = (pop R e).add e := by
    unfold leftOne
    cases hbe : ((pop R e).add e).below e with
    | none => rfl
    | some b =>
      obtain ⟨k1, k2⟩ := below_mem hbe
      exact detectIntersection_noop gd b1.wf fr.nb (b1.sl b k1).1 el (sids b e (b1.sl b k1).1 el (lt_ne k2))
  rw [one]
  cases hab : ((pop R e).add e).above e with
  | none => rfl
  | some x =>
    obtain ⟨k1, k2⟩ := above_mem hab
    exact detectIntersection_noop gd b1.wf fr.nb el (b1.sl x k1).1 (sids e x el (b1.sl x k1).1 (lt_ne k2))

include gd h in
theorem far_right {e : ℕ} (low : Low c R e) (hp : lx c R.lin e = c.X p) (h1 : e % 2 = 1) :
    ((pop R e).processRight e).lin.ok = R.lin.ok := by
  have hlt := hb.qlt e low.mem
  obtain ⟨e2, oe⟩ := right_opp hb h.toCore hlt h1 hp
  obtain ⟨b0, _⟩ := base_pop hb low.mem hp
  have hβ : ∀ i j t, Bad c i j t → β ≤ t := fun i j t k => absurd k (fr.nb i j t)
  generalize ho : R.lin.opp e = o at oe
  have oT : o ∈ R.lin.sweepLine := by
    rw [h.tmem]
    refine ⟨⟨by omega, by omega⟩, fun k => ?_, by rw [oe]; exact low.mem⟩
    have a := hb.qge o k
    have l := hb.wf.lr o ⟨by omega, by omega⟩
    have : rx c R.lin o = lx c R.lin e := by
      unfold rx lx Lin.end
      rw [← ho, hb.wf.oppOpp e hlt]
    linarith
  obtain ⟨A, B, hT⟩ := List.append_of_mem oT
  have sp : Split (pop R e).lt o A B := h.split hb hT
  have hT' : (pop R e).lin.sweepLine = A ++ o :: B := hT
  have hf : (pop R e).find ((pop R e).lin.opp e) = some o := by
    have : (pop R e).lin.opp e = o := ho
    rw [this]; exact split_find sp hT'
  rw [processRight_some gd hβ b0 (R := pop R e) hlt (by omega) hp hf]
  have ho' : (pop R e).lin.opp e = o := ho
  rw [ho']
  show (rightOne (pop R e) o).lin.ok = R.lin.ok
  have okr : ((pop R e).remove o).lin.ok = R.lin.ok := by
    show (R.lin.ok && (pop R e).lin.sweepLine.any ((pop R e).sameKey o)) = R.lin.ok
    rw [split_any sp hT', Bool.and_true]
  obtain ⟨b1, _⟩ := base_remove b0 o
  unfold rightOne
  rw [split_below sp hT', split_above sp hT']
  cases hA : A.getLast? with
  | none => exact okr
  | some b =>
    cases hB : B.head? with
    | none => exact okr
    | some a =>
      simp only
      have mb : b ∈ R.lin.sweepLine := by rw [hT]; exact List.mem_append_left _ (List.mem_of_getLast? hA)
      have ma : a ∈ R.lin.sweepLine := by
        rw [hT]; exact List.mem_append_right _ (List.mem_cons_of_mem _ (List.mem_of_head? hB))
      have hba : b ≠ a := by
        have := h.tnd
        rw [hT, List.nodup_append] at this
        exact this.2.2 b (List.mem_of_getLast? hA) a (List.mem_cons_of_mem _ (List.mem_of_head? hB))
      have lb := (hb.sl b mb).1
      have la := (hb.sl a ma).1
      have sids : R.lin.sid b ≠ R.lin.sid a := by
        rw [fr.sid hb h lb, fr.sid hb h la]
        have := lb.2; have := la.2; omega
      have := detectIntersection_noop (R := (pop R e).remove o) gd b1.wf fr.nb lb la sids
      rw [this]; exact okr

include gd h in
/-- One iteration of the sweep of noded segments. -/
theorem far_step {e : ℕ} (low : Low c R e) (hp : lx c R.lin e = c.X p) (hok : R.lin.ok = true) :
    (R.process e).lin.ok = true ∧ Base c β (R.process e) p (ids ++ [R.sid e]) ∧ Clean c β (R.process e) p ∧
      (R.process e).sid e = R.sid e ∧ (∀ x, x ∈ (R.process e).lin.queue ↔ x ≠ e ∧ x ∈ R.lin.queue) ∧
      (R.process e).lin.queue.length + 1 = R.lin.queue.length := by
  have hβ : ∀ i j t, Bad c i j t → β ≤ t := fun i j t k => absurd k (fr.nb i j t)
  have ok : (R.process e).lin.ok = true := by
    rw [process_eq]
    rcases Nat.mod_two_eq_zero_or_one e with h0 | h0
    · rw [if_pos (isLeft_iff.mpr h0), far_left gd fr hb h low hp h0]; exact hok
    · rw [if_neg (fun g => by have := isLeft_iff.mp g; omega), far_right gd fr hb h low hp h0]; exact hok
  rcases step_base gd hβ hb low hp (Or.inr h) with k | ⟨k1, k2, k3⟩
  · rw [ok] at k; cases k
  rcases k3 with k3 | k3
  · exact absurd k3 (fr.no_doom k1)
  have hN : 0 < c.N := by
    have := hb.qlt e low.mem
    rw [fr.cnt hb h] at this; omega
  obtain ⟨b0, _⟩ := base_pop hb low.mem hp
  have mv : Mv (pop R e) (R.process e) := by
    have he := hb.qlt e low.mem
    have eq : e ∉ (pop R e).lin.queue := fun k => ((mem_pop hb.qnd).mp k).1 rfl
    have es : e ∉ (pop R e).lin.sweepLine := fun k => hb.slq e k low.mem
    rw [process_eq] at ok ⊢
    rcases Nat.mod_two_eq_zero_or_one e with h0 | h0
    · rw [if_pos (isLeft_iff.mpr h0)] at ok ⊢
      rcases left_base gd hβ b0 (R := pop R e) ⟨he, h0⟩ hp eq es with k | r
      · rw [ok] at k; cases k
      · exact r.mv
    · rw [if_neg (fun g => by have := isLeft_iff.mp g; omega)] at ok ⊢
      rcases right_base gd hβ b0 (R := pop R e) he (by omega) hp with k | r
      · rw [ok] at k; cases k
      · exact r.mv
  have q : ∀ x, x ∈ (R.process e).lin.queue ↔ x ≠ e ∧ x ∈ R.lin.queue := by
    intro x
    rw [← mem_pop hb.qnd]
    refine ⟨fun k => mv.queue' x ?_ k, mv.queue x⟩
    have := k1.qlt x k
    rw [fr.cnt k1 k3] at this
    show x < Sweep.cnt R.lin
    rw [fr.cnt hb h]; exact this
  refine ⟨ok, k1, k3, k2, q, ?_⟩
  have e1 : (R.process e).lin.queue.Perm (R.lin.queue.erase e) := by
    rw [List.perm_ext_iff_of_nodup k1.qnd (hb.qnd.erase e)]
    intro x
    rw [q, hb.qnd.mem_erase_iff]
  rw [e1.length_eq, List.length_erase_of_mem low.mem]
  have := List.length_pos_of_mem low.mem
  omega

end

end Rene.BO
