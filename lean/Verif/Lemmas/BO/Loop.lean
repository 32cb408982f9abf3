import Verif.Lemmas.BO.StepL3
import Verif.Lemmas.BO.Struct

/-! The validity sweep reports the first bad contact. -/

namespace Rene.BO
open Rene Spec Sweep

variable {c : Ctx} {β : ℚ} {R R' : Reg} {p : Point} {ids : List ℕ}

/-! ### The consumer -/

theorem consume_all {test : Intersection → Bool} {l : List (ℕ × ℕ)} {n : ℕ} (h : consume test R p l = some (some n)) :
    ∀ u ∈ l, ∃ x, toIntersection R p u.1 u.2 = some x ∧ test x = true := by
  induction l generalizing n with
  | nil => intro u hu; simp at hu
  | cons v l ih =>
    obtain ⟨i, j⟩ := v
    rw [consume] at h
    intro u hu
    cases k : toIntersection R p i j with
    | none => rw [k] at h; cases h
    | some x =>
      rw [k] at h
      simp only at h
      by_cases kt : test x = true
      · rw [if_pos kt] at h
        rcases List.mem_cons.mp hu with rfl | hu
        · exact ⟨x, k, kt⟩
        · cases kc : consume test R p l with
          | none => rw [kc] at h; simp at h
          | some r =>
            cases r with
            | none => rw [kc] at h; simp at h
            | some m => exact ih kc u hu
      · rw [if_neg kt] at h; cases h

theorem mem_pairsOf {x y : ℕ} (h : x ≠ y) : ∀ {l : List ℕ}, x ∈ l → y ∈ l → (x, y) ∈ pairsOf l ∨ (y, x) ∈ pairsOf l := by
  intro l
  induction l with
  | nil => intro hx; simp at hx
  | cons z l ih =>
    intro hx hy
    rw [pairsOf]
    rcases List.mem_cons.mp hx with rfl | hx'
    · rcases List.mem_cons.mp hy with k | hy
      · exact absurd k.symm h
      · exact Or.inl (List.mem_append_left _ (List.mem_map.mpr ⟨y, hy, rfl⟩))
    · rcases List.mem_cons.mp hy with rfl | hy
      · exact Or.inr (List.mem_append_left _ (List.mem_map.mpr ⟨x, hx', rfl⟩))
      · rcases ih hx' hy with k | k
        · exact Or.inl (List.mem_append_right _ k)
        · exact Or.inr (List.mem_append_right _ k)

theorem dup_pairsOf : ∀ {l : List ℕ}, ¬ l.Nodup → ∃ x, (x, x) ∈ pairsOf l := by
  intro l
  induction l with
  | nil => intro h; exact absurd List.nodup_nil h
  | cons z l ih =>
    intro h
    rw [pairsOf]
    by_cases k : z ∈ l
    · exact ⟨z, List.mem_append_left _ (List.mem_map.mpr ⟨z, k, rfl⟩)⟩
    · obtain ⟨x, hx⟩ := ih (fun g => h (List.nodup_cons.mpr ⟨k, g⟩))
      exact ⟨x, List.mem_append_right _ hx⟩

theorem not_touch {x y : ℕ} {t : Intersection} (h : toIntersection R p x y = some t) (hne : x ≠ y)
    (hc : R.areCollinear x y = none ∨ R.areCollinear x y = some true)
    (hm : pyMax (R.segmentStart x) (R.segmentStart y) ≠ pyMin (R.segmentEnd x) (R.segmentEnd y)) : t.relation ≠ .touch := by
  unfold toIntersection at h
  simp only at h
  rw [if_neg hne] at h
  rcases hc with hc | hc
  · rw [hc] at h; cases h
  · rw [hc] at h
    simp only at h
    rw [if_neg hm] at h
    repeat' split at h
    all_goals (injection h with h; rw [← h]; simp)

theorem self_equal {x : ℕ} {t : Intersection} (h : toIntersection R p x x = some t) : t.relation ≠ .touch := by
  unfold toIntersection at h
  simp only [if_true] at h
  injection h with h; rw [← h]; simp

theorem pyMax_or (a b : Point) : pyMax a b = a ∨ pyMax a b = b := by unfold pyMax; split <;> simp
theorem pyMin_or (a b : Point) : pyMin a b = a ∨ pyMin a b = b := by unfold pyMin; split <;> simp

/-! ### The end of the bad group -/

section
variable {test : Intersection → Bool} (gd : c.Good0) (hT : ∀ x, test x = true → x.relation = .touch)
include hT

theorem doom_before (hb : Base c β R p ids) (hp : c.X p < β) (hq : ∀ e ∈ R.lin.queue, β < lx c R.lin e)
    (d : Doom c β R p ids) : False := by
  have no : ∀ z, ¬ Present c β R p ids z := by
    rintro z (⟨k, _⟩ | ⟨e, he, k, _⟩)
    · linarith
    · have := hq e he; linarith
  rcases d with d | ⟨z, hz, k⟩
  · rcases d with ⟨e, he, _, _, _, k, _⟩ | ⟨k, _⟩ | ⟨k, _⟩
    · have := hq e he; linarith
    · linarith
    · linarith
  · obtain ⟨⟨e, he, k1, k2⟩, _⟩ := hb.mc z hz k
    exact no _ (hb.pres e he.1 k2)

theorem Base.wk (hb : Base c β R p ids) (hs : ∀ x ∈ R.lin.segmentsIds, x < c.N) : Wk c.N R := by
  refine ⟨hs, hb.mlen, fun x hx => ?_⟩
  obtain ⟨i, hi', e⟩ := List.getElem_of_mem hx
  have := hb.parent_lt (z := i) (by rw [← hb.mlen]; exact hi')
  unfold Reg.parent at this
  rw [List.getD_eq_getElem?_getD, List.getElem?_eq_getElem hi'] at this
  rw [← e]; exact this

include gd in
theorem doom_at (hb : Base c β R p ids) (hs : ∀ x ∈ R.lin.segmentsIds, x < c.N) (hp : c.X p = β)
    (hq : ∀ e ∈ R.lin.queue, β < lx c R.lin e)
    (d : Doom c β R p ids) (st : St c.N 2 R R') {n : ℕ} (hc : consume test R' p (pairsOf ids) = some (some n)) : False := by
  have all := consume_all hc
  rcases d with d | d
  · rcases d with ⟨e, he, _, _, _, k, _⟩ | ⟨_, e, he, k, _⟩ | ⟨_, k⟩
    · have := hq e he; linarith
    · have := hq e he; linarith
    · obtain ⟨x, hx⟩ := dup_pairsOf k
      obtain ⟨t, k1, k2⟩ := all _ hx
      exact self_equal k1 (hT t k2)
  · have wk := hb.wk hT hs
    have inG : ∀ z, InG c β R.lin z → z ∈ ids ∧ z < c.N ∧ c.X (c.A z) ≤ β ∧ β < c.X (c.B z) := by
      rintro z ⟨e, he, k1, k2⟩
      have a := hb.wf.inA e he
      have b := hb.wf.inB e he
      have l := hb.wf.lr e he
      have s := hb.wf.sidLt e he
      rw [k1] at a b s
      refine ⟨?_, s, by linarith, by linarith⟩
      rcases hb.pres e he.1 k2 with ⟨_, k⟩ | ⟨x, hx, k, _⟩
      · rwa [sid_left R he.2, k1] at k
      · have := hq x hx; linarith
    obtain ⟨x, y, gx, gy, hne, a, b, k⟩ := join_of_mg
      (G := fun z => z ∈ ids ∧ z < c.N ∧ c.X (c.A z) ≤ β ∧ β < c.X (c.B z)) wk.mlen wk.mlt
      (fun z hz k => ⟨inG _ (hb.mc z hz k).1, inG _ (hb.mc z hz k).2⟩) d st.mgs
    have startOld : ∀ e < cnt R.lin, R'.lin.start e = R.lin.start e := by
      intro e he
      obtain ⟨t, ht⟩ := st.pre
      unfold Lin.start
      rw [ht, List.getD_eq_getElem?_getD, List.getElem?_append_left he, List.getD_eq_getElem?_getD]
    have big := hb.wf.big
    have sg : ∀ z < c.N, R'.segmentStart z = c.A z ∧ R'.segmentEnd z = c.B z := by
      intro z hz
      refine ⟨?_, ?_⟩
      · show R'.lin.start (2 * z) = _
        rw [startOld _ (by omega), hb.wf.initA z hz]
      · show R'.lin.start (2 * z + 1) = _
        rw [startOld _ (by omega), hb.wf.initB z hz]
    have bad : ∀ u v, (u ∈ ids ∧ u < c.N ∧ c.X (c.A u) ≤ β ∧ β < c.X (c.B u)) →
        (v ∈ ids ∧ v < c.N ∧ c.X (c.A v) ≤ β ∧ β < c.X (c.B v)) → u ≠ v →
        (∃ a b, (par R'.minColl)^[a] u = (par R'.minColl)^[b] v) → (u, v) ∈ pairsOf ids → False := by
      rintro u v ⟨_, u1, u2, u3⟩ ⟨_, v1, v2, v3⟩ huv ⟨a, b, k⟩ hm
      obtain ⟨t, k1, k2⟩ := all _ hm
      refine not_touch k1 huv (areCollinear_of_join k) (fun g => ?_) (hT t k2)
      simp only at g
      rw [(sg u u1).1, (sg u u1).2, (sg v v1).1, (sg v v1).2] at g
      have g := congrArg c.X g
      have g1 : c.X (pyMax (c.A u) (c.A v)) ≤ β := by
        rcases pyMax_or (c.A u) (c.A v) with z | z <;> rw [z] <;> assumption
      have g2 : β < c.X (pyMin (c.B u) (c.B v)) := by
        rcases pyMin_or (c.B u) (c.B v) with z | z <;> rw [z] <;> assumption
      linarith
    rcases mem_pairsOf hne gx.1 gy.1 with z | z
    · exact bad x y gx gy hne ⟨a, b, k⟩ z
    · exact bad y x gy gx hne.symm ⟨b, a, k.symm⟩ z

end

/-! ### The next group -/

theorem Base.next (hb : Base c β R p ids) {q : Point} (hq : q ∈ c.P) (h1 : c.X p < c.X q) (h2 : c.X q ≤ β)
    (h3 : ∀ e ∈ R.lin.queue, c.X q ≤ lx c R.lin e) : Base c β R q [] := by
  refine ⟨hb.wf, hq, h2, hb.qlt, hb.qnd, h3, fun e he => ⟨(hb.sl e he).1, (hb.sl e he).2.trans h1.le⟩, hb.slq, hb.mlen, hb.mc,
    fun e he k => ?_⟩
  rcases hb.pres e he k with ⟨z, _⟩ | z
  · linarith
  · exact Or.inr z

theorem Doom.next {q : Point} (hp : c.X p < β) (d : Doom c β R p ids) : Doom c β R q [] := by
  rcases d with d | d
  · rcases d with d | ⟨k, _⟩ | ⟨k, _⟩
    · exact Or.inl (Or.inl d)
    · linarith
    · linarith
  · exact Or.inr d

theorem Clean.next (hb : Base c β R p ids) (h : Clean c β R p) {q : Point} (h1 : c.X p < c.X q) (h2 : c.X q ≤ β)
    (h3 : ∀ e ∈ R.lin.queue, c.X q ≤ lx c R.lin e) : Clean c β R q := by
  refine ⟨⟨h.new, h.opp, fun e he k => (h.ple e he k).trans h1.le, h.tmem, h.tnd, h.sorted, ?_⟩, h.chain,
    h.nab_next hb h2 h1 h3, Or.inl fun x hx => lt_of_le_of_lt (hb.sl x hx).2 h1⟩
  rintro ⟨e, he, _, k1, k2⟩
  have := h.ple e he k1
  linarith

/-! ### One iteration -/

/-- Each pop takes an event which is least by the start and the side. -/
def GoodPick (pick : Reg → ℕ) : Prop := ∀ R : Reg, R.lin.queue ≠ [] → pick R ∈ R.lin.queue ∧
  ∀ x ∈ R.lin.queue, R.queueLt x (pick R) = false

theorem low_of_pick {pick : Reg → ℕ} (hpick : GoodPick pick) (gd : c.Good0) (w : WfB c R.lin)
    (hq : ∀ e ∈ R.lin.queue, e < cnt R.lin) (hne : R.lin.queue ≠ []) : Low c R (pick R) := by
  obtain ⟨h1, h2⟩ := hpick R hne
  have key : ∀ x ∈ R.lin.queue, ¬ (R.lin.start x < R.lin.start (pick R)) := by
    intro x hx k
    have := h2 x hx
    unfold Reg.queueLt at this
    rw [Point.lt_iff] at k
    have S : ∀ y, R.start y = R.lin.start y := fun _ => rfl
    simp only [S] at this
    generalize R.lin.start x = a at *
    generalize R.lin.start (pick R) = b at *
    grind
  refine ⟨h1, fun x hx => ?_, fun h0 x hx k => ?_⟩
  · have := key x hx
    rw [gd.lt_iff (w.memP x (hq x hx)) (w.memP _ (hq _ h1))] at this
    exact not_lt.mp this
  · have e : R.lin.start x = R.lin.start (pick R) := (gd.eq_iff (w.memP x (hq x hx)) (w.memP _ (hq _ h1))).mpr k
    have := h2 x hx
    unfold Reg.queueLt at this
    have S : ∀ y, R.start y = R.lin.start y := fun _ => rfl
    simp only [S, e, ne_eq, not_true, if_false] at this
    by_contra g
    have l1 : isLeft (pick R) = true := isLeft_iff.mpr h0
    have l2 : isLeft x = false := by rw [Bool.eq_false_iff]; intro z; exact g (isLeft_iff.mp z)
    rw [l1, l2] at this
    simp at this

section
variable (gd : c.Good0) (hβ : ∀ i j t, Bad c i j t → β ≤ t)
include gd hβ

theorem step_base (hb : Base c β R p ids) {e : ℕ} (low : Low c R e) (hp : lx c R.lin e = c.X p)
    (d : Doom c β R p ids ∨ Clean c β R p) :
    (R.process e).lin.ok = false ∨ (Base c β (R.process e) p (ids ++ [R.sid e]) ∧ (R.process e).sid e = R.sid e ∧
      (Doom c β (R.process e) p (ids ++ [R.sid e]) ∨ Clean c β (R.process e) p)) := by
  obtain ⟨b0, k0⟩ := base_pop hb low.mem hp
  have he := hb.qlt e low.mem
  have eq : e ∉ (pop R e).lin.queue := fun k => ((mem_pop hb.qnd).mp k).1 rfl
  have es : e ∉ (pop R e).lin.sweepLine := fun k => hb.slq e k low.mem
  have fin : ∀ X : Reg, X.lin.ok = false ∨ Res0 c β (pop R e) X p (ids ++ [R.sid e]) →
      (Clean c β R p → X.lin.ok = false ∨ Doom c β X p (ids ++ [R.sid e]) ∨ Clean c β X p) →
      X.lin.ok = false ∨ (Base c β X p (ids ++ [R.sid e]) ∧ X.sid e = R.sid e ∧
      (Doom c β X p (ids ++ [R.sid e]) ∨ Clean c β X p)) := by
    rintro X (k | r) cl
    · exact Or.inl k
    · have hs : X.sid e = R.sid e := r.mv.sid e he
      rcases d with d | d
      · exact Or.inr ⟨r.base, hs, Or.inl (r.doom b0 (k0 d))⟩
      · rcases cl d with z | z
        · exact Or.inl z
        · exact Or.inr ⟨r.base, hs, z⟩
  rw [process_eq]
  rcases Nat.mod_two_eq_zero_or_one e with h0 | h0
  · rw [if_pos (isLeft_iff.mpr h0)]
    exact fin _ (left_base gd hβ b0 (R := pop R e) ⟨he, h0⟩ hp eq es) fun cl => left_clean gd hβ hb cl low hp h0
  · rw [if_neg (fun g => by have := isLeft_iff.mp g; omega)]
    exact fin _ (right_base gd hβ b0 (R := pop R e) he (by omega) hp) fun cl => right_clean gd hβ hb cl low.mem hp h0

end

/-! ### The loop -/

theorem sweep_bad {pick : Reg → ℕ} (hpick : GoodPick pick) {test : Intersection → Bool}
    (hT : ∀ x, test x = true → x.relation = .touch) (gd : c.Good0) (hβ : ∀ i j t, Bad c i j t → β ≤ t)
    {i j : ℕ} (bad : Bad c i j β) :
    ∀ (fuel : ℕ) (R : Reg) (p : Point) (ids : List ℕ) (count n : ℕ), Base c β R p ids → Wk c.N R →
      (Doom c β R p ids ∨ Clean c β R p) → sweepLoop pick test fuel R p ids count ≠ some (some n) := by
  have hN : 0 < c.N := by have := bad.1; omega
  intro fuel
  induction fuel with
  | zero => intro R p ids count n _ _ _ h; rw [sweepLoop] at h; cases h
  | succ fuel ih =>
    intro R p ids count n hb wk hd h
    -- the group is over
    have over : ∀ R' : Reg, St c.N 2 R R' → (∀ e ∈ R.lin.queue, β < lx c R.lin e) → ∀ m,
        consume test R' p (pairsOf ids) = some (some m) → False := by
      intro R' st hq m hc
      rcases hd with d | cl
      · rcases eq_or_lt_of_le hb.pβ with k | k
        · exact doom_at gd hT hb wk.sids k hq d st hc
        · exact doom_before hT hb k hq d
      · exact cl.final hb gd hq bad
    rw [sweepLoop] at h
    by_cases hq : R.lin.queue = []
    · rw [if_pos hq] at h
      cases hc : consume test R p (pairsOf ids) with
      | none => rw [hc] at h; cases h
      | some r =>
        cases r with
        | none => rw [hc] at h; cases h
        | some m => exact over R (.refl 2 wk) (by rw [hq]; simp) m hc
    · rw [if_neg hq] at h
      simp only at h
      have low := low_of_pick hpick gd hb.wf hb.qlt hq
      generalize pick R = e at *
      have he := hb.qlt e low.mem
      have st := st_process hN wk e
      by_cases ok : (R.process e).lin.ok = false
      · rw [if_pos ok] at h; cases h
      rw [if_neg ok] at h
      have hs : (R.process e).start e = R.lin.start e := by
        obtain ⟨t, ht⟩ := st.pre
        show (R.process e).lin.start e = _
        unfold Lin.start
        rw [ht, List.getD_eq_getElem?_getD, List.getElem?_append_left he, List.getD_eq_getElem?_getD]
      rw [hs] at h
      by_cases hp : R.lin.start e = p
      · rw [if_pos hp] at h
        rcases step_base gd hβ hb low (by unfold lx; rw [hp]) hd with k | ⟨k1, k2, k3⟩
        · exact ok k
        · rw [k2] at h
          exact ih _ _ _ _ _ k1 st.wk k3 h
      · rw [if_neg hp] at h
        have heP := hb.wf.memP e he
        have gt : c.X p < lx c R.lin e := by
          refine lt_of_le_of_ne (hb.qge e low.mem) fun g => hp ?_
          exact (gd.eq_iff heP hb.pP).mpr g.symm
        cases hc : consume test (R.process e) p (pairsOf ids) with
        | none => rw [hc] at h; cases h
        | some r =>
          cases r with
          | none => rw [hc] at h; cases h
          | some m =>
            rw [hc] at h
            simp only at h
            by_cases le : lx c R.lin e ≤ β
            · have b1 := hb.next heP gt le low.min
              have d1 : Doom c β R (R.lin.start e) [] ∨ Clean c β R (R.lin.start e) := by
                rcases hd with d | cl
                · exact Or.inl (d.next (lt_of_lt_of_le gt le))
                · exact Or.inr (cl.next hb gt le low.min)
              rcases step_base gd hβ b1 low rfl d1 with k | ⟨k1, k2, k3⟩
              · exact ok k
              · rw [k2] at h
                exact ih _ _ _ _ _ k1 st.wk k3 h
            · push Not at le
              exact over _ st (fun x hx => lt_of_lt_of_le le (low.min x hx)) m hc

end Rene.BO
