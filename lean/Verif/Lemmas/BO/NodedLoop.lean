import Verif.Lemmas.BO.Noop

/-! The validity sweep of noded segments: the reported contacts. -/

namespace Rene.BO
open Rene Spec Sweep

variable {c : Ctx} {β : ℚ} {R : Reg} {p : Point} {ids : List ℕ}

theorem consume_some {test : Intersection → Bool} {f : ℕ → ℕ → Intersection} {l : List (ℕ × ℕ)}
    (h : ∀ u ∈ l, toIntersection R p u.1 u.2 = some (f u.1 u.2)) : consume test R p l ≠ none ∧
    ((∀ u ∈ l, test (f u.1 u.2) = true) → consume test R p l = some (some l.length)) := by
  induction l with
  | nil => exact ⟨by rw [consume]; simp, fun _ => rfl⟩
  | cons u l ih =>
    obtain ⟨i, j⟩ := u
    obtain ⟨h1, h2⟩ := List.forall_mem_cons.mp h
    obtain ⟨i1, i2⟩ := ih h2
    simp only at h1
    rw [consume, h1]
    simp only
    constructor
    · by_cases k : test (f i j) = true
      · rw [if_pos k]
        generalize consume test R p l = r at *
        rcases r with _ | _ | n
        · exact absurd rfl i1
        · simp
        · simp
      · rw [if_neg k]; simp
    · intro k
      obtain ⟨k1, k2⟩ := List.forall_mem_cons.mp k
      simp only at k1
      rw [if_pos k1, i2 k2, List.length_cons]

theorem pairsOf_mem {l : List ℕ} (h : l.Nodup) : ∀ u ∈ pairsOf l, u.1 ∈ l ∧ u.2 ∈ l ∧ u.1 ≠ u.2 := by
  induction l with
  | nil => intro u hu; simp [pairsOf] at hu
  | cons x l ih =>
    intro u hu
    obtain ⟨h1, h2⟩ := List.nodup_cons.mp h
    rw [pairsOf] at hu
    rcases List.mem_append.mp hu with k | k
    · obtain ⟨y, hy, rfl⟩ := List.mem_map.mp k
      exact ⟨List.mem_cons_self, List.mem_cons_of_mem _ hy, fun g => h1 (by simp only at g; rw [g]; exact hy)⟩
    · obtain ⟨k1, k2, k3⟩ := ih h2 u k
      exact ⟨List.mem_cons_of_mem _ k1, List.mem_cons_of_mem _ k2, k3⟩

/-- The segments with an end at the point whose events are out of the queue. -/
structure Grp (c : Ctx) (R : Reg) (p : Point) (ids : List ℕ) : Prop where
  nd : ids.Nodup
  mem : ∀ z, z ∈ ids ↔ z < c.N ∧ ((c.A z = p ∧ 2 * z ∉ R.lin.queue) ∨ (c.B z = p ∧ 2 * z + 1 ∉ R.lin.queue))

/-- The segments with an end at the point. -/
structure Star (c : Ctx) (p : Point) (ids : List ℕ) : Prop where
  nd : ids.Nodup
  mem : ∀ z, z ∈ ids ↔ z < c.N ∧ (c.A z = p ∨ c.B z = p)

section
variable (gd : c.Good0) (fr : Far c β) (hb : Base c β R p ids) (h : Clean c β R p)
include fr hb

theorem far_toIntersection {q : Point} {i j : ℕ} (hi' : i < c.N) (hj : j < c.N) (hij : i ≠ j) (hq : c.A i = q ∨ c.B i = q) :
    toIntersection R q i j = some ⟨i, j, .touch, q, q⟩ := by
  have sg : ∀ z < c.N, R.segmentStart z = c.A z ∧ R.segmentEnd z = c.B z := fun z hz =>
    ⟨hb.wf.initA z hz, hb.wf.initB z hz⟩
  have mc : ∀ z < c.N, R.toMinCollinear z = some z := by
    intro z hz
    have := fr.parent hb hz
    unfold Reg.toMinCollinear
    simp [Reg.minCollinear, this]
  have ac : R.areCollinear i j = some false := by
    unfold Reg.areCollinear
    rw [mc i hi', mc j hj]
    simp [hij]
  unfold toIntersection
  simp only
  rw [if_neg hij, ac]
  simp only
  rw [if_pos]
  rw [(sg i hi').1, (sg i hi').2]
  rcases hq with k | k
  · exact Or.inl k
  · exact Or.inr (Or.inl k)

include h

theorem far_sid {e : ℕ} (he : e < cnt R.lin) : R.sid e = e / 2 := by
  have hc := fr.cnt hb h
  rcases Nat.mod_two_eq_zero_or_one e with h0 | h0
  · rw [sid_left R h0, h.sid hb (by omega) h0]
  · have o : R.lin.opp e = e - 1 := by
      have k := h.opp (e / 2) (by omega)
      have e2 : 2 * (e / 2) = e - 1 := by omega
      rw [e2] at k
      have l := hb.wf.oppLt (e - 1) (by omega)
      have k : R.lin.opp (e - 1) = e := by omega
      have := hb.wf.oppOpp (e - 1) (by omega)
      rw [k] at this; exact this
    rw [sid_right R (by omega), o, h.sid hb (by omega) (by omega)]; omega

theorem far_start {e : ℕ} (he : e < cnt R.lin) : R.lin.start e = if e % 2 = 0 then c.A (e / 2) else c.B (e / 2) := by
  have hc := fr.cnt hb h
  rcases Nat.mod_two_eq_zero_or_one e with h0 | h0
  · rw [if_pos h0, ← hb.wf.initA (e / 2) (by omega)]; congr 1; omega
  · rw [if_neg (by omega), ← hb.wf.initB (e / 2) (by omega)]; congr 1; omega

include gd in
theorem Grp.star (hg : Grp c R p ids) (hq : ∀ e ∈ R.lin.queue, c.X p < lx c R.lin e) : Star c p ids := by
  refine ⟨hg.nd, fun z => ?_⟩
  rw [hg.mem]
  refine and_congr_right fun hz => ?_
  have a : c.A z = p → 2 * z ∉ R.lin.queue := by
    intro k m
    have := hq _ m
    unfold lx at this
    rw [hb.wf.initA z hz, k] at this; exact lt_irrefl _ this
  have b : c.B z = p → 2 * z + 1 ∉ R.lin.queue := by
    intro k m
    have := hq _ m
    unfold lx at this
    rw [hb.wf.initB z hz, k] at this; exact lt_irrefl _ this
  tauto

include gd in
/-- The events at a later point are queued. -/
theorem Grp.start {q : Point} (hq : c.X p < c.X q) : Grp c R q [] := by
  refine ⟨List.nodup_nil, fun z => ?_⟩
  constructor
  · intro k; exact absurd k List.not_mem_nil
  · rintro ⟨hz, ⟨k1, k2⟩ | ⟨k1, k2⟩⟩
    · have := h.ple _ (by omega) k2
      unfold lx at this
      rw [hb.wf.initA z hz, k1] at this; linarith
    · have := h.ple _ (by omega) k2
      unfold lx at this
      rw [hb.wf.initB z hz, k1] at this; linarith

include gd in
theorem Grp.step (hg : Grp c R p ids) {e : ℕ} (he : e ∈ R.lin.queue) (hp : R.lin.start e = p) {R' : Reg}
    (hq : ∀ x, x ∈ R'.lin.queue ↔ x ≠ e ∧ x ∈ R.lin.queue) : Grp c R' p (ids ++ [e / 2]) := by
  have hc := fr.cnt hb h
  have lt := hb.qlt e he
  rw [far_start fr hb h lt] at hp
  have hz : e / 2 < c.N := by omega
  have ne : c.A (e / 2) ≠ c.B (e / 2) := fun k => by
    have := gd.lt (e / 2) hz
    rw [k] at this; exact lt_irrefl _ this
  have nm : e / 2 ∉ ids := by
    rw [hg.mem]
    rintro ⟨_, ⟨k1, k2⟩ | ⟨k1, k2⟩⟩
    · by_cases h0 : e % 2 = 0
      · exact k2 (by have : 2 * (e / 2) = e := by omega
                     rw [this]; exact he)
      · rw [if_neg h0] at hp; exact ne (k1.trans hp.symm)
    · by_cases h0 : e % 2 = 0
      · rw [if_pos h0] at hp; exact ne (hp.trans k1.symm)
      · exact k2 (by have : 2 * (e / 2) + 1 = e := by omega
                     rw [this]; exact he)
  refine ⟨List.nodup_append.mpr ⟨hg.nd, List.nodup_singleton _, fun a ha b hb' k => ?_⟩, fun z => ?_⟩
  · rw [List.mem_singleton.mp hb'] at k; rw [k] at ha; exact nm ha
  · rw [List.mem_append, hg.mem, List.mem_singleton, hq, hq]
    constructor
    · rintro (⟨k1, k2⟩ | rfl)
      · exact ⟨k1, by tauto⟩
      · refine ⟨hz, ?_⟩
        by_cases h0 : e % 2 = 0
        · rw [if_pos h0] at hp
          exact Or.inl ⟨hp, fun k => k.1 (by omega)⟩
        · rw [if_neg h0] at hp
          exact Or.inr ⟨hp, fun k => k.1 (by omega)⟩
    · rintro ⟨k1, ⟨k2, k3⟩ | ⟨k2, k3⟩⟩
      · by_cases g : 2 * z = e
        · right; omega
        · left; exact ⟨k1, Or.inl ⟨k2, fun m => k3 ⟨g, m⟩⟩⟩
      · by_cases g : 2 * z + 1 = e
        · right; omega
        · left; exact ⟨k1, Or.inr ⟨k2, fun m => k3 ⟨g, m⟩⟩⟩

end

/-! ### The loop -/

/-- What is found out about noded segments: nothing fails; all the contacts are tested; if all of them pass the test,
then they are counted. -/
structure Found (c : Ctx) (test : Intersection → Bool) (p : Point) (enough : Prop) (events count : ℕ)
    (r : Option (Option ℕ)) : Prop where
  total : enough → r ≠ none
  passed : ∀ n, r = some (some n) → ∀ q, c.X p ≤ c.X q → ∀ i < c.N, ∀ j < c.N, i ≠ j → (c.A i = q ∨ c.B i = q) →
    (c.A j = q ∨ c.B j = q) → test ⟨i, j, .touch, q, q⟩ = true ∨ test ⟨j, i, .touch, q, q⟩ = true
  passes : enough → (∀ q, ∀ i < c.N, ∀ j < c.N, i ≠ j → (c.A i = q ∨ c.B i = q) →
    (c.A j = q ∨ c.B j = q) → test ⟨i, j, .touch, q, q⟩ = true) → ∃ m, r = some (some (count + m)) ∧
    ((∀ q ids, ids ≠ [] → Star c q ids → 2 * (pairsOf ids).length = ids.length) → 2 * m = events)

theorem far_consume (fr : Far c β) {R' : Reg} {p' : Point} {ids' : List ℕ} (hb : Base c β R' p' ids') (hs : Star c p ids)
    (test : Intersection → Bool) : consume test R' p (pairsOf ids) ≠ none ∧
    (∀ n, consume test R' p (pairsOf ids) = some (some n) → ∀ i ∈ ids, ∀ j ∈ ids, i ≠ j →
      test ⟨i, j, .touch, p, p⟩ = true ∨ test ⟨j, i, .touch, p, p⟩ = true) ∧
    ((∀ i ∈ ids, ∀ j ∈ ids, i ≠ j → test ⟨i, j, .touch, p, p⟩ = true) →
      consume test R' p (pairsOf ids) = some (some (pairsOf ids).length)) := by
  have ti : ∀ u ∈ pairsOf ids, toIntersection R' p u.1 u.2 = some ((fun i j => ⟨i, j, .touch, p, p⟩ : ℕ → ℕ → Intersection) u.1 u.2) := by
    intro u hu
    obtain ⟨k1, k2, k3⟩ := pairsOf_mem hs.nd u hu
    exact far_toIntersection fr hb ((hs.mem _).mp k1).1 ((hs.mem _).mp k2).1 k3 ((hs.mem _).mp k1).2
  obtain ⟨c1, c2⟩ := consume_some (test := test) (f := fun i j => ⟨i, j, .touch, p, p⟩) ti
  refine ⟨c1, fun n hn i hi' j hj hij => ?_, fun k => c2 fun u hu => ?_⟩
  · have := consume_all hn
    rcases mem_pairsOf hij hi' hj with m | m
    · obtain ⟨x, x1, x2⟩ := this _ m
      rw [ti _ m] at x1
      cases x1; exact Or.inl x2
    · obtain ⟨x, x1, x2⟩ := this _ m
      rw [ti _ m] at x1
      cases x1; exact Or.inr x2
  · obtain ⟨k1, k2, k3⟩ := pairsOf_mem hs.nd u hu
    exact k _ k1 _ k2 k3

theorem sweep_far {pick : Reg → ℕ} (hpick : GoodPick pick) (test : Intersection → Bool) (gd : c.Good0) (fr : Far c β) :
    ∀ (fuel : ℕ) (R : Reg) (p : Point) (ids : List ℕ) (count : ℕ), Base c β R p ids → Clean c β R p →
      R.lin.ok = true → ids ≠ [] → Grp c R p ids → Found c test p (R.lin.queue.length < fuel)
        (ids.length + R.lin.queue.length) count (sweepLoop pick test fuel R p ids count) := by
  intro fuel
  induction fuel with
  | zero =>
    intro R p ids count _ _ _ _ _
    rw [sweepLoop]
    exact ⟨fun k => absurd k (by omega), fun n k => by (cases k), fun k => absurd k (by omega)⟩
  | succ fuel ih =>
    intro R p ids count hb h hok hid hg
    have hc := fr.cnt hb h
    -- the end of a point is the start of some event
    have ev : ∀ q i, i < c.N → (c.A i = q ∨ c.B i = q) → q ∈ c.P ∧ ∃ e < 2 * c.N, lx c R.lin e = c.X q := by
      rintro q i hi' (k | k)
      · exact ⟨k ▸ gd.memA i hi', 2 * i, by omega, by unfold lx; rw [hb.wf.initA i hi', k]⟩
      · exact ⟨k ▸ gd.memB i hi', 2 * i + 1, by omega, by unfold lx; rw [hb.wf.initB i hi', k]⟩
    rw [sweepLoop]
    by_cases hq : R.lin.queue = []
    · rw [if_pos hq]
      have st := hg.star gd fr hb h (by rw [hq]; simp)
      obtain ⟨c1, c2, c3⟩ := far_consume fr hb st test
      refine ⟨fun _ => ?_, fun n k => ?_, fun _ k => ?_⟩
      · generalize consume test R p (pairsOf ids) = r at *
        rcases r with _ | _ | n
        · exact absurd rfl c1
        · simp
        · simp
      · intro q hpq i hi' j hj hij qi qj
        have e : q = p := by
          obtain ⟨qP, e, he, hx⟩ := ev q i hi' qi
          have := h.ple e he (by rw [hq]; simp)
          exact (gd.eq_iff qP hb.pP).mpr (by linarith)
        subst e
        generalize hr : consume test R q (pairsOf ids) = r at *
        rcases r with _ | _ | m
        · simp at k
        · simp at k
        · exact c2 m rfl i ((st.mem i).mpr ⟨hi', qi⟩) j ((st.mem j).mpr ⟨hj, qj⟩) hij
      · have := c3 fun i hi' j hj hij => k p i ((st.mem i).mp hi').1 j ((st.mem j).mp hj).1 hij ((st.mem i).mp hi').2
          ((st.mem j).mp hj).2
        rw [this]
        refine ⟨_, rfl, fun z => ?_⟩
        rw [hq, z p ids hid st]; rfl
    · rw [if_neg hq]
      simp only
      have low := low_of_pick hpick gd hb.wf hb.qlt hq
      generalize pick R = e at *
      have he := hb.qlt e low.mem
      have hN : 0 < c.N := by omega
      have wk : Wk c.N R := by
        refine ⟨fun x hx => ?_, hb.mlen, fun x hx => ?_⟩
        · obtain ⟨i, hi', e⟩ := List.getElem_of_mem hx
          have l := hb.wf.lenS
          have := hb.wf.sidLt (2 * i) ⟨by omega, by omega⟩
          unfold Lin.sid at this
          have e2 : 2 * i / 2 = i := by omega
          rw [e2, List.getD_eq_getElem?_getD, List.getElem?_eq_getElem hi'] at this
          rw [← e]; exact this
        · obtain ⟨i, hi', e⟩ := List.getElem_of_mem hx
          have := hb.parent_lt (z := i) (by rw [← hb.mlen]; exact hi')
          unfold Reg.parent at this
          rw [List.getD_eq_getElem?_getD, List.getElem?_eq_getElem hi'] at this
          rw [← e]; exact this
      have st := st_process hN wk e
      have hs : (R.process e).start e = R.lin.start e := by
        obtain ⟨t, ht⟩ := st.pre
        show (R.process e).lin.start e = _
        unfold Lin.start
        rw [ht, List.getD_eq_getElem?_getD, List.getElem?_append_left he, List.getD_eq_getElem?_getD]
      by_cases hp : R.lin.start e = p
      · obtain ⟨k1, k2, k3, k4, k5, k6⟩ := far_step gd fr hb h low (by unfold lx; rw [hp]) hok
        rw [if_neg (by rw [k1]; simp), hs, if_pos hp, k4]
        have es := far_sid fr hb h he
        have g1 := hg.step gd fr hb h low.mem hp k5
        rw [← es] at g1
        have := ih (R.process e) p (ids ++ [R.sid e]) count k2 k3 k1 (by simp) g1
        refine ⟨fun z => this.total (by omega), this.passed, fun z y => ?_⟩
        obtain ⟨m, m1, m2⟩ := this.passes (by omega) y
        refine ⟨m, m1, fun w => ?_⟩
        rw [m2 w, List.length_append, List.length_singleton]; omega
      · have heP := hb.wf.memP e he
        have gt : c.X p < lx c R.lin e := by
          refine lt_of_le_of_ne (hb.qge e low.mem) fun g => hp ?_
          exact (gd.eq_iff heP hb.pP).mpr g.symm
        have le : lx c R.lin e ≤ β := (fr.far _ heP).le
        have b1 := hb.next heP gt le low.min
        have d1 := h.next hb gt le low.min
        obtain ⟨k1, k2, k3, k4, k5, k6⟩ := far_step gd fr b1 d1 low rfl hok
        rw [if_neg (by rw [k1]; simp), hs, if_neg hp, k4]
        have es := far_sid fr hb h he
        have sr := hg.star gd fr hb h (fun x hx => lt_of_lt_of_le gt (low.min x hx))
        have g0 : Grp c R (R.lin.start e) [] := Grp.start gd fr hb h gt
        have g1 := g0.step gd fr b1 d1 low.mem rfl k5
        rw [← es] at g1
        obtain ⟨c1, c2, c3⟩ := far_consume fr k2 sr test
        refine ⟨fun z => ?_, fun n k => ?_, fun z y => ?_⟩
        · generalize consume test (R.process e) p (pairsOf ids) = r at *
          rcases r with _ | _ | n
          · exact absurd rfl c1
          · simp
          · exact (ih _ _ _ _ k2 k3 k1 (by simp) g1).total (by omega)
        · intro q hpq i hi' j hj hij qi qj
          generalize hr : consume test (R.process e) p (pairsOf ids) = r at *
          rcases r with _ | _ | m
          · simp at k
          · simp at k
          · obtain ⟨qP, x, hx, hx'⟩ := ev q i hi' qi
            rcases eq_or_lt_of_le hpq with g | g
            · have e : q = p := (gd.eq_iff qP hb.pP).mpr g.symm
              subst e
              exact c2 m rfl i ((sr.mem i).mpr ⟨hi', qi⟩) j ((sr.mem j).mpr ⟨hj, qj⟩) hij
            · refine (ih _ _ _ _ k2 k3 k1 (by simp) g1).passed n k q ?_ i hi' j hj hij qi qj
              have xq : x ∈ R.lin.queue := by
                by_contra w
                have := h.ple x hx w
                linarith
              have := low.min x xq
              rw [hx'] at this; exact this
        · have := c3 fun i hi' j hj hij => y p i ((sr.mem i).mp hi').1 j ((sr.mem j).mp hj).1 hij ((sr.mem i).mp hi').2
            ((sr.mem j).mp hj).2
          rw [this]
          simp only
          obtain ⟨m, m1, m2⟩ := (ih (R.process e) (R.lin.start e) ([] ++ [R.sid e]) (count + (pairsOf ids).length) k2 k3 k1 (by simp) g1).passes (by omega) y
          refine ⟨(pairsOf ids).length + m, by rw [List.nil_append] at m1; rw [m1]; congr 2; omega, fun w => ?_⟩
          have w1 := w p ids hid sr
          have w2 := m2 w
          rw [List.length_append, List.length_singleton, List.length_nil] at w2
          omega

end Rene.BO
