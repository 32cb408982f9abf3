import Verif.Lemmas.BO.Detect

/-! Processing an event preserves the base invariant. -/

namespace Rene.BO
open Rene Spec Sweep

variable {c : Ctx} {β : ℚ} {R R' : Reg} {p : Point} {ids : List ℕ}

/-- What holds after any step. -/
structure Res0 (c : Ctx) (β : ℚ) (R R' : Reg) (p : Point) (ids : List ℕ) : Prop where
  base : Base c β R' p ids
  mv : Mv R R'
  d2 : D2 c R → D2 c R'

theorem Res.zero (h : Res c β R R' p ids) : Res0 c β R R' p ids := ⟨h.base, h.mv, h.d2⟩

theorem Res0.trans {R'' : Reg} (h : Res0 c β R R' p ids) (h' : Res0 c β R' R'' p ids) : Res0 c β R R'' p ids :=
  ⟨h'.base, h.mv.trans h'.mv, fun d => h'.d2 (h.d2 d)⟩

theorem Res0.doom (h : Res0 c β R R' p ids) (hb : Base c β R p ids) (d : Doom c β R p ids) : Doom c β R' p ids := by
  rcases d with d | d
  · exact Or.inl (h.mv.d1 hb.qlt d)
  · exact Or.inr (h.d2 d)

theorem find_mem {e x : ℕ} (h : R.find e = some x) : x ∈ R.lin.sweepLine ∧ R.lin.start x = R.lin.start e ∧
    R.lin.end x = R.lin.end e := by
  unfold Reg.find at h
  cases hf : R.lin.sweepLine.reverse.find? (fun x => !R.lt e x) with
  | none => rw [hf] at h; cases h
  | some y =>
    rw [hf] at h
    simp only at h
    by_cases k : R.start y = R.start e ∧ R.end y = R.end e
    · rw [if_pos k] at h
      cases h
      have := List.mem_of_find?_eq_some hf
      exact ⟨by simpa using this, k⟩
    · rw [if_neg k] at h; cases h

theorem add_mem {e x : ℕ} : x ∈ (R.add e).lin.sweepLine ↔ x = e ∨ x ∈ R.lin.sweepLine := by
  unfold Reg.add
  simp only [List.mem_append, List.mem_cons]
  constructor
  · rintro (k | k | k)
    · exact Or.inr ((List.takeWhile_sublist _).subset k)
    · exact Or.inl k
    · exact Or.inr ((List.dropWhile_sublist _).subset k)
  · rintro (k | k)
    · exact Or.inr (Or.inl k)
    · rw [← List.takeWhile_append_dropWhile (p := fun x => R.lt x e) (l := R.lin.sweepLine), List.mem_append] at k
      rcases k with k | k
      · exact Or.inl k
      · exact Or.inr (Or.inr k)

theorem base_add (h : Base c β R p ids) {e : ℕ} (he : IsL R.lin e) (hle : lx c R.lin e ≤ c.X p) (hq : e ∉ R.lin.queue) :
    Base c β (R.add e) p ids ∧ Mv R (R.add e) := by
  refine ⟨base_congr h h.mlen rfl rfl rfl rfl (fun y hy => ?_) h.mc,
    ⟨le_rfl, fun _ _ => rfl, fun _ _ => rfl, fun _ h => h, fun _ _ h => h, fun h => h, fun _ _ => Or.inl rfl⟩⟩
  rcases add_mem.mp hy with rfl | k
  · exact ⟨⟨he, hle⟩, hq⟩
  · exact ⟨h.sl y k, h.slq y k⟩

/-- The state before the two intersection tests of a left event, and after the first one. -/
def leftOne (R : Reg) (e : ℕ) : Reg :=
  match (R.add e).below e with
  | some b => (R.add e).detectIntersection b e
  | none => R.add e

theorem processLeft_none {e : ℕ} (h : R.find e = none) : R.processLeft e =
    match (leftOne R e).above e with
    | some a => (leftOne R e).detectIntersection e a
    | none => leftOne R e := by
  unfold Reg.processLeft; rw [h]; rfl

variable (gd : c.Good0) (hβ : ∀ i j t, Bad c i j t → β ≤ t)

theorem detect_ok {T : Reg} {u v : ℕ} (hT : T.lin.ok = false) : (T.detectIntersection u v).lin.ok = false := by
  have : (T.detect u v).lin.ok = false := by
    have dca : ∀ {R : Reg} {e : ℕ} {m : Point}, R.lin.ok = false → (R.divideCheckingAbove e m).lin.ok = false := by
      intro R e m h
      unfold Reg.divideCheckingAbove
      cases R.above e with
      | none => exact h
      | some x =>
        simp only
        by_cases k : R.start x = R.start e ∧ R.end x = m
        · rw [if_pos k]
          show (R.lin.ok && _) = false
          rw [h]; rfl
        · rw [if_neg k]; exact h
    have dl : (T.divideLonger u v).lin.ok = false := by
      unfold Reg.divideLonger
      show (T.lin.ok && _) = false
      rw [hT]; rfl
    unfold Reg.detect
    simp only
    have d2 : ∀ m, ((T.divideByMidpoint u m).divideCheckingAbove v m).lin.ok = false :=
      fun m => dca (R := T.divideByMidpoint u m) hT
    repeat' split
    all_goals first | exact hT | exact dl | exact dca hT | exact d2 _
  unfold Reg.detectIntersection
  simp [this]

include gd hβ

/-- The state after the first test. -/
theorem res_leftOne {e : ℕ} (h : Base c β R p ids) (he : IsL R.lin e) (hle : lx c R.lin e ≤ c.X p)
    (hq : e ∉ R.lin.queue) : (leftOne R e).lin.ok = false ∨ Res0 c β R (leftOne R e) p ids := by
  obtain ⟨b1, mv1⟩ := base_add h he hle hq
  unfold leftOne
  cases hb : (R.add e).below e with
  | none => exact Or.inr ⟨b1, mv1, fun d => d⟩
  | some b =>
    obtain ⟨hb1, _⟩ := below_mem hb
    obtain ⟨l1, l2⟩ := b1.sl b hb1
    rcases res_detect gd hβ b1 l1 (mv1.isL he) l2 (by rw [mv1.lx he.1]; exact hle) with k | ⟨r, _⟩
    · exact Or.inl k
    · exact Or.inr ⟨r.base, mv1.trans r.mv, fun d => r.d2 d⟩

theorem left_base {e : ℕ} (h : Base c β R p ids) (he : IsL R.lin e) (hle : lx c R.lin e = c.X p)
    (hq : e ∉ R.lin.queue) (hs : e ∉ R.lin.sweepLine) :
    (R.processLeft e).lin.ok = false ∨ Res0 c β R (R.processLeft e) p ids := by
  cases hf : R.find e with
  | some q =>
    right
    obtain ⟨hq1, k1, k2⟩ := find_mem hf
    obtain ⟨ql, _⟩ := h.sl q hq1
    have hne : q ≠ e := fun g => hs (g ▸ hq1)
    obtain ⟨hsid, bad⟩ := bad_of_equal h.wf ql he hne k1 k2
    have g := hβ _ _ _ bad
    have hp := h.pβ
    have ee : lx c R.lin e = β := by linarith
    have eq : lx c R.lin q = β := by rw [← ee]; unfold lx; rw [k1]
    obtain ⟨b, d⟩ := base_merge h ql he ⟨q, ql, rfl, eq⟩ ⟨e, he, rfl, ee⟩ hsid
    have : R.processLeft e = R.merge q e := by unfold Reg.processLeft; rw [hf]
    rw [this]
    exact ⟨b, mv_merge _ _, fun _ => d⟩
  | none =>
    rw [processLeft_none hf]
    have hle' : lx c R.lin e ≤ c.X p := hle.le
    rcases res_leftOne gd hβ h he hle' hq with k | r
    · left
      cases ha : (leftOne R e).above e with
      | none => exact k
      | some a =>
        exact detect_ok k
    · cases ha : (leftOne R e).above e with
      | none => exact Or.inr r
      | some a =>
        obtain ⟨ha1, _⟩ := above_mem ha
        obtain ⟨l1, l2⟩ := r.base.sl a ha1
        rcases res_detect gd hβ r.base (r.mv.isL he) l1 (by rw [r.mv.lx he.1]; exact hle') l2 with k | ⟨r2, _⟩
        · exact Or.inl k
        · exact Or.inr (r.trans r2.zero)

/-- The state after the removal of an event and the test of its neighbours. -/
def rightOne (R : Reg) (q : ℕ) : Reg :=
  match R.below q, R.above q with
  | some b, some a => (R.remove q).detectIntersection b a
  | _, _ => R.remove q

theorem find_opp {e : ℕ} (h : Base c β R p ids) (he : e < cnt R.lin) (hr : e % 2 ≠ 0) (hle : lx c R.lin e = c.X p)
    {q : ℕ} (hf : R.find (R.lin.opp e) = some q) : q = R.lin.opp e := by
  obtain ⟨hq1, k1, k2⟩ := find_mem hf
  obtain ⟨ql, _⟩ := h.sl q hq1
  have w := h.wf
  have ol : IsL R.lin (R.lin.opp e) := ⟨w.oppLt e he, by have := w.oppPar e he; omega⟩
  by_contra hne
  obtain ⟨_, bad⟩ := bad_of_equal w ql ol hne k1 k2
  have g := hβ _ _ _ bad
  have hp := h.pβ
  have l := w.lr _ ol
  have : rx c R.lin (R.lin.opp e) = lx c R.lin e := by unfold rx lx Lin.end; rw [w.oppOpp e he]
  linarith

theorem processRight_some {e : ℕ} (h : Base c β R p ids) (he : e < cnt R.lin) (hr : e % 2 ≠ 0)
    (hle : lx c R.lin e = c.X p) {q : ℕ} (hf : R.find (R.lin.opp e) = some q) :
    R.processRight e = (rightOne R (R.lin.opp e)).merge (R.lin.opp e) (R.lin.opp e) := by
  have e1 := find_opp gd hβ h he hr hle hf
  subst e1
  have hf' : R.find (R.opp e) = some (R.lin.opp e) := hf
  unfold Reg.processRight rightOne
  simp only [hf']
  have : R.opp e = R.lin.opp e := rfl
  cases R.below (R.lin.opp e) <;> cases R.above (R.lin.opp e) <;> simp [this]

theorem right_base {e : ℕ} (h : Base c β R p ids) (he : e < cnt R.lin) (hr : e % 2 ≠ 0) (hle : lx c R.lin e = c.X p) :
    (R.processRight e).lin.ok = false ∨ Res0 c β R (R.processRight e) p ids := by
  cases hf : R.find (R.lin.opp e) with
  | none =>
    have hf' : R.find (R.opp e) = none := hf
    have : R.processRight e = R := by unfold Reg.processRight; simp only [hf']
    rw [this]
    exact Or.inr ⟨h, Mv.refl _, fun d => d⟩
  | some q =>
    rw [processRight_some gd hβ h he hr hle hf]
    have w := h.wf
    have ol : IsL R.lin (R.lin.opp e) := ⟨w.oppLt e he, by have := w.oppPar e he; omega⟩
    obtain ⟨b1, mv1⟩ := base_remove h (R.lin.opp e)
    have key : (rightOne R (R.lin.opp e)).lin.ok = false ∨ Res0 c β R (rightOne R (R.lin.opp e)) p ids := by
      unfold rightOne
      cases hb : R.below (R.lin.opp e) with
      | none => exact Or.inr ⟨b1, mv1, fun d => d⟩
      | some b =>
        cases ha : R.above (R.lin.opp e) with
        | none => exact Or.inr ⟨b1, mv1, fun d => d⟩
        | some a =>
          obtain ⟨l1, l2⟩ := h.sl b (below_mem hb).1
          obtain ⟨l3, l4⟩ := h.sl a (above_mem ha).1
          rcases res_detect (R := R.remove (R.lin.opp e)) gd hβ b1 l1 l3 l2 l4 with k | ⟨r, _⟩
          · exact Or.inl k
          · exact Or.inr ⟨r.base, mv1.trans r.mv, fun d => r.d2 d⟩
    rcases key with k | r
    · exact Or.inl k
    · right
      obtain ⟨b3, d3, _⟩ := base_selfmerge r.base (r.mv.isL ol)
      exact ⟨b3, r.mv.trans (mv_merge _ _), fun d => d3 (r.d2 d)⟩

end Rene.BO
