import Verif.Lemmas.BO.Clean

/-! Processing a right event before the first bad contact. -/

namespace Rene.BO
open Rene Spec Sweep

variable {c : Ctx} {β : ℚ} {R R' : Reg} {p : Point} {ids : List ℕ}

/-- The popped event is least by the stable part of the key. -/
structure Low (c : Ctx) (R : Reg) (e : ℕ) : Prop where
  mem : e ∈ R.lin.queue
  min : ∀ x ∈ R.lin.queue, lx c R.lin e ≤ lx c R.lin x
  right : e % 2 = 0 → ∀ x ∈ R.lin.queue, lx c R.lin x = lx c R.lin e → x % 2 = 0

/-- The state after an event is taken from the queue. -/
def pop (R : Reg) (e : ℕ) : Reg := { R with lin := { R.lin with queue := R.lin.queue.erase e } }

theorem process_eq (e : ℕ) : R.process e = if isLeft e then (pop R e).processLeft e else (pop R e).processRight e := rfl

theorem mem_pop (hnd : R.lin.queue.Nodup) {e x : ℕ} : x ∈ (pop R e).lin.queue ↔ x ≠ e ∧ x ∈ R.lin.queue :=
  hnd.mem_erase_iff

theorem base_pop (h : Base c β R p ids) {e : ℕ} (he : e ∈ R.lin.queue) (hp : lx c R.lin e = c.X p) :
    Base c β (pop R e) p (ids ++ [R.sid e]) ∧
      (Doom c β R p ids → Doom c β (pop R e) p (ids ++ [R.sid e])) := by
  have mq := fun x => mem_pop (e := e) (x := x) h.qnd
  have sid : ∀ x, (pop R e).sid x = R.sid x := fun _ => rfl
  constructor
  · refine ⟨h.wf.congr rfl rfl rfl, h.pP, h.pβ, fun x hx => h.qlt x ((mq x).mp hx).2, h.qnd.erase e,
      fun x hx => h.qge x ((mq x).mp hx).2, h.sl, fun x hx k => h.slq x hx ((mq x).mp k).2, h.mlen, h.mc, ?_⟩
    intro x hx hβ
    rcases h.pres x hx hβ with ⟨k1, k2⟩ | ⟨y, hy, k1, k2⟩
    · exact Or.inl ⟨k1, by rw [sid]; simp [k2]⟩
    · by_cases hye : y = e
      · left
        rw [hye] at k1 k2
        exact ⟨by rw [← hp]; exact k1, by rw [sid, ← k2]; simp⟩
      · exact Or.inr ⟨y, (mq y).mpr ⟨hye, hy⟩, k1, k2⟩
  · rintro (d | d)
    · left
      have sym : ∀ y y', y ∈ R.lin.queue → y' ∈ R.lin.queue → y ≠ y' → lx c R.lin y = β → lx c R.lin y' = β →
          R.sid y = R.sid y' → y = e → D1 c β (pop R e) p (ids ++ [R.sid e]) := by
        intro y y' _ hy' hne k1 k2 k3 hye
        subst hye
        exact Or.inr (Or.inl ⟨by rw [← hp]; exact k1, y', (mq y').mpr ⟨hne.symm, hy'⟩, k2, by rw [sid, ← k3]; simp⟩)
      rcases d with ⟨y, hy, y', hy', hne, k1, k2, k3⟩ | ⟨k, y, hy, k1, k2⟩ | ⟨k, k'⟩
      · by_cases g : y = e
        · exact sym y y' hy hy' hne k1 k2 k3 g
        · by_cases g' : y' = e
          · exact sym y' y hy' hy hne.symm k2 k1 k3.symm g'
          · exact Or.inl ⟨y, (mq y).mpr ⟨g, hy⟩, y', (mq y').mpr ⟨g', hy'⟩, hne, k1, k2, k3⟩
      · by_cases g : y = e
        · subst g
          refine Or.inr (Or.inr ⟨k, fun nd => ?_⟩)
          rw [List.nodup_append] at nd
          exact nd.2.2 _ k2 _ (List.mem_singleton.mpr rfl) rfl
        · exact Or.inr (Or.inl ⟨k, y, (mq y).mpr ⟨g, hy⟩, k1, by rw [sid]; simp [k2]⟩)
      · exact Or.inr (Or.inr ⟨k, fun nd => k' (List.nodup_append.mp nd).1⟩)
    · exact Or.inr d

/-! ### Lookups in an ordered line -/

section
variable {Z : Reg} {o : ℕ} {A B : List ℕ}

theorem split_any (h : Split Z.lt o A B) (hT : Z.lin.sweepLine = A ++ o :: B) :
    Z.lin.sweepLine.any (Z.sameKey o) = true := by
  rw [List.any_eq_true]
  exact ⟨o, by rw [hT]; simp, by simp [Reg.sameKey, h.self]⟩

theorem split_above (h : Split Z.lt o A B) (hT : Z.lin.sweepLine = A ++ o :: B) : Z.above o = B.head? := by
  unfold Reg.above
  rw [if_pos (split_any h hT), hT, find?_append_false h.a2, List.find?_cons, h.self]
  exact find?_true h.b2

theorem split_below (h : Split Z.lt o A B) (hT : Z.lin.sweepLine = A ++ o :: B) : Z.below o = A.getLast? := by
  unfold Reg.below
  rw [if_pos (split_any h hT), hT, List.reverse_append, List.reverse_cons, List.append_assoc, find?_append_false,
    List.singleton_append, List.find?_cons, h.self]
  · simp only
    rw [find?_true, List.head?_reverse]
    intro x hx
    exact h.a1 x (List.mem_reverse.mp hx)
  · intro x hx
    exact h.b1 x (List.mem_reverse.mp hx)

theorem split_find (h : Split Z.lt o A B) (hT : Z.lin.sweepLine = A ++ o :: B) : Z.find o = some o := by
  have : Z.lin.sweepLine.reverse.find? (fun x => !Z.lt o x) = some o := by
    rw [hT, List.reverse_append, List.reverse_cons, List.append_assoc, find?_append_false,
      List.singleton_append, List.find?_cons, h.self]
    · rfl
    · intro x hx
      rw [h.b2 x (List.mem_reverse.mp hx)]; rfl
  unfold Reg.find
  rw [this]
  simp

theorem split_remove (h : Split Z.lt o A B) (hT : Z.lin.sweepLine = A ++ o :: B) :
    (Z.remove o).lin.sweepLine = A ++ B := by
  unfold Reg.remove
  simp only
  rw [hT, eraseP_append_false, List.eraseP_cons]
  · simp [Reg.sameKey, h.self]
  · intro x hx
    simp [Reg.sameKey, h.a1 x hx]

end

theorem Clean.congr (h : Clean c β R p) (e : R'.lin = R.lin) : Clean c β R' p := by
  obtain ⟨l, m⟩ := R
  obtain ⟨l', m'⟩ := R'
  simp only at e
  subst e
  exact ⟨⟨h.new, h.opp, h.ple, h.tmem, h.tnd, h.sorted, h.rl⟩, h.chain, h.nab, h.v⟩

theorem chain_res {l : List ℕ} (hc : l.IsChain (Ck c R.lin)) (hl : ∀ x ∈ l, IsL R.lin x) (mv : Mv R R')
    (hr : ∀ x, IsL R.lin x → rx c R'.lin x ≤ rx c R.lin x) : l.IsChain (Ck c R'.lin) :=
  IsChain.imp_mem hc fun a ha b hb k => k.res mv hr (hl a ha) (hl b hb)

/-- The events of the line are separated by each of them. -/
theorem Core.split (hb : Base c β R p ids) (h : Core c β R p) {A B : List ℕ} {o : ℕ}
    (hT : R.lin.sweepLine = A ++ o :: B) : Split R.lt o A B := by
  have hs := h.sorted
  rw [hT, List.pairwise_append, List.pairwise_cons] at hs
  have ho : o ∈ R.lin.sweepLine := by rw [hT]; simp
  have key : ∀ x ∈ R.lin.sweepLine, ∀ y ∈ R.lin.sweepLine, Ab c R.lin x y → R.lt x y = true ∧ R.lt y x = false :=
    fun x hx y hy k => lt_of_ab hb.wf (hb.sl x hx).1 (hb.sl y hy).1 ((hb.sl x hx).2.trans (h.le_rx' hb hy))
      ((hb.sl y hy).2.trans (h.le_rx' hb hx)) k
  have mA : ∀ x ∈ A, x ∈ R.lin.sweepLine := fun x hx => by rw [hT]; simp [hx]
  have mB : ∀ x ∈ B, x ∈ R.lin.sweepLine := fun x hx => by rw [hT]; simp [hx]
  have kA : ∀ x ∈ A, Ab c R.lin x o := fun x hx => hs.2.2 x hx o (by simp)
  have kB : ∀ x ∈ B, Ab c R.lin o x := fun x hx => hs.2.1.1 x hx
  exact ⟨fun x hx => (key x (mA x hx) o ho (kA x hx)).1, fun x hx => (key x (mA x hx) o ho (kA x hx)).2,
    fun x hx => (key o ho x (mB x hx) (kB x hx)).2, fun x hx => (key o ho x (mB x hx) (kB x hx)).1, keyLt_irrefl _ _⟩

theorem right_opp (hb : Base c β R p ids) (h : Core c β R p) {e : ℕ} (he : e < cnt R.lin) (h1 : e % 2 = 1)
    (hp : lx c R.lin e = c.X p) : e < 2 * c.N ∧ R.lin.opp e + 1 = e := by
  have big := hb.wf.big
  have pb := hb.pβ
  have ol : IsL R.lin (R.lin.opp e) := ⟨hb.wf.oppLt e he, by have := hb.wf.oppPar e he; omega⟩
  have er : rx c R.lin (R.lin.opp e) = lx c R.lin e := by unfold rx lx Lin.end; rw [hb.wf.oppOpp e he]
  have l := hb.wf.lr _ ol
  have e2 : e < 2 * c.N := by
    by_contra k
    have := h.new e he (not_lt.mp k); linarith
  have o2 : R.lin.opp e < 2 * c.N := by
    by_contra k
    have := h.new _ ol.1 (not_lt.mp k); linarith
  refine ⟨e2, ?_⟩
  rcases h.opp' hb o2 ol.2 with k | k
  · rw [hb.wf.oppOpp e he] at k; exact k.symm
  · rw [hb.wf.oppOpp e he] at k; omega

theorem right_clean (gd : c.Good0) (hβ : ∀ i j t, Bad c i j t → β ≤ t) {e : ℕ} (hb : Base c β R p ids)
    (h : Clean c β R p) (he : e ∈ R.lin.queue) (hp : lx c R.lin e = c.X p) (h1 : e % 2 = 1) :
    ((pop R e).processRight e).lin.ok = false ∨ Doom c β ((pop R e).processRight e) p (ids ++ [R.sid e]) ∨
      Clean c β ((pop R e).processRight e) p := by
  have hlt := hb.qlt e he
  obtain ⟨e2, oe⟩ := right_opp hb h.toCore hlt h1 hp
  generalize ho : R.lin.opp e = o at oe
  have big := hb.wf.big
  obtain ⟨b0, _⟩ := base_pop hb he hp
  have mq := fun x => mem_pop (e := e) (x := x) hb.qnd
  have oT : o ∈ R.lin.sweepLine := by
    rw [h.tmem]
    refine ⟨⟨by omega, by omega⟩, fun k => ?_, by rw [oe]; exact he⟩
    have := hb.qge o k
    have ol : IsL R.lin o := ⟨by omega, by omega⟩
    have er : rx c R.lin o = lx c R.lin e := by
      unfold rx lx Lin.end; rw [← ho, hb.wf.oppOpp e hlt]
    have := hb.wf.lr _ ol
    linarith
  obtain ⟨A, B, hT⟩ := List.append_of_mem oT
  have sp : Split (pop R e).lt o A B := h.toCore.split hb hT
  have hT' : (pop R e).lin.sweepLine = A ++ o :: B := hT
  have ho' : (pop R e).lin.opp e = o := ho
  have hf : (pop R e).find ((pop R e).lin.opp e) = some o := by rw [ho']; exact split_find sp hT'
  have ol : IsL (pop R e).lin o := (b0.sl o oT).1
  rw [processRight_some gd hβ b0 hlt (by omega) hp hf, ho']
  obtain ⟨b1, mv1⟩ := base_remove b0 o
  have hT1 : ((pop R e).remove o).lin.sweepLine = A ++ B := split_remove sp hT'
  have nd := h.tnd
  rw [hT, List.nodup_middle, List.nodup_cons] at nd
  have mAB : ∀ x, x ∈ A ++ B ↔ x ≠ o ∧ x ∈ R.lin.sweepLine := by
    intro x
    rw [hT]
    constructor
    · intro k
      exact ⟨fun g => nd.1 (g ▸ k), by simp only [List.mem_append, List.mem_cons] at *; tauto⟩
    · rintro ⟨k, k'⟩
      simp only [List.mem_append, List.mem_cons] at *; tauto
  -- the state after the removal
  have q1 : ∀ x, x ∈ ((pop R e).remove o).lin.queue ↔ x ≠ e ∧ x ∈ R.lin.queue := mq
  have core1 : Core c β ((pop R e).remove o) p := by
    refine ⟨h.new, h.opp, fun x hx hxq => ?_, fun x => ?_, by rw [hT1]; exact nd.2, ?_, ?_⟩
    · by_cases g : x = e
      · rw [g]; exact hp.le
      · exact h.ple x hx (fun k => hxq ((q1 x).mpr ⟨g, k⟩))
    · rw [hT1, mAB, h.tmem, q1, q1]
      constructor
      · rintro ⟨k0, k1, k2, k3⟩
        exact ⟨k1, fun g => k2 g.2, by omega, k3⟩
      · rintro ⟨k1, k2, k3, k4⟩
        refine ⟨by omega, k1, fun g => k2 ⟨by omega, g⟩, k4⟩
    · rw [hT1]
      have := h.sorted
      rw [hT] at this
      exact this.sublist (by simp)
    · rintro ⟨x, hx, x0, hxq, hxp⟩ y hy hy1
      have hxq' : x ∉ R.lin.queue := fun k => hxq ((q1 x).mpr ⟨by omega, k⟩)
      have := h.rl ⟨x, hx, x0, hxq', hxp⟩ e he h1
      linarith
  have hch := h.chain
  rw [hT] at hch
  have chA : A.IsChain (Ck c R.lin) := hch.left_of_append
  have chB : B.IsChain (Ck c R.lin) := hch.right_of_append.tail
  have v1 : (∀ x ∈ A ++ B, lx c R.lin x < c.X p) ∨
      ∀ x ∈ A ++ B, c.f (R.lin.sid x) (c.X p) = p.y → ¬ Int c R.lin x (c.X p) := by
    rcases h.v with v | v
    · exact Or.inl fun x hx => v x ((mAB x).mp hx).2
    · exact Or.inr fun x hx => v x ((mAB x).mp hx).2
  have lA : ∀ x ∈ A ++ B, IsL R.lin x := fun x hx => (hb.sl x ((mAB x).mp hx).2).1
  -- the general conclusion
  have concl : ∀ X : Reg, Base c β X p (ids ++ [R.sid e]) → Mv ((pop R e).remove o) X →
      X.lin.sweepLine = A ++ B → (∀ x, cnt R.lin ≤ x → x < cnt X.lin → β < lx c X.lin x) →
      (∀ x, IsL R.lin x → rx c X.lin x ≤ rx c R.lin x) →
      (∀ x ∈ A.getLast?, ∀ y ∈ B.head?, Ck c X.lin x y) → Clean c β (X.merge o o) p := by
    intro X bX mv hl hn hr hj
    have k : Core c β X p := core1.res b1 bX mv ⟨by rw [hl, hT1], hn⟩
    have hc : Clean c β X p := by
      refine ⟨k, ?_, h.nab, ?_⟩
      · rw [hl]
        rw [List.isChain_append]
        exact ⟨chain_res (R := (pop R e).remove o) chA (fun x hx => lA x (List.mem_append_left _ hx)) mv hr,
          chain_res (R := (pop R e).remove o) chB (fun x hx => lA x (List.mem_append_right _ hx)) mv hr, hj⟩
      · rw [hl]
        rcases v1 with v | v
        · left; intro x hx
          have := mv.lx (c := c) (e := x) (lA x hx).1
          rw [this]; exact v x hx
        · right; intro x hx hf hint
          rw [mv.lsid (e := x) (lA x hx)] at hf
          exact v x hx hf (int_res (R := (pop R e).remove o) hint mv hr (lA x hx))
    exact hc.congr rfl
  have fallback : A.getLast? = none ∨ B.head? = none → Clean c β (((pop R e).remove o).merge o o) p := by
    intro k
    refine concl _ b1 (Mv.refl _) hT1 (fun x k1 k2 => absurd k2 (not_lt.mpr k1)) (fun _ _ => le_rfl) ?_
    intro x hx y hy
    rcases k with k | k
    · rw [k] at hx; cases hx
    · rw [k] at hy; cases hy
  unfold rightOne
  rw [split_above sp hT', split_below sp hT']
  cases hA : A.getLast? with
  | none => exact Or.inr (Or.inr (fallback (Or.inl hA)))
  | some b =>
    cases hB : B.head? with
    | none => exact Or.inr (Or.inr (fallback (Or.inr hB)))
    | some a =>
      have mb : b ∈ A ++ B := List.mem_append_left _ (List.mem_of_getLast? hA)
      have ma : a ∈ A ++ B := List.mem_append_right _ (List.mem_of_head? hB)
      have lb := b1.sl b (by rw [hT1]; exact mb)
      have la := b1.sl a (by rw [hT1]; exact ma)
      rcases res_detect gd hβ b1 lb.1 la.1 lb.2 la.2 with k | ⟨r, k⟩
      · exact Or.inl k
      · right
        obtain ⟨_, d3, _⟩ := base_selfmerge r.base (r.mv.isL (e := o) ol)
        have dm : Doom c β (((pop R e).remove o).detectIntersection b a) p (ids ++ [R.sid e]) →
            Doom c β ((((pop R e).remove o).detectIntersection b a).merge o o) p (ids ++ [R.sid e]) := by
          rintro (d | d)
          · exact Or.inl ((mv_merge o o).d1 r.base.qlt d)
          · exact Or.inr (d3 d)
        rcases k with k | k
        · exact Or.inl (dm k)
        · rcases r.alt with l | ⟨l1, l2, l3⟩
          · exact Or.inl (dm l)
          · right
            refine concl _ r.base r.mv (by rw [l2, hT1]) l3 r.rx ?_
            intro x hx y hy
            rw [hA] at hx; rw [hB] at hy
            cases hx; cases hy
            exact k.2.2

end Rene.BO
