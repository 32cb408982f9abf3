import Verif.Lemmas.BO.DetectCases

/-! The intersection test preserves the base invariant and dooms the sweep on bad contacts at `β`. -/

namespace Rene.BO
open Rene Spec Sweep

variable {c : Ctx} {β : ℚ} {R R' R'' : Reg} {p : Point} {ids : List ℕ}

/-- Two pieces meet only at ends of both. -/
def Ck (c : Ctx) (S : Lin) (a b : ℕ) : Prop := ∀ t, c.f (S.sid a) t = c.f (S.sid b) t → lx c S a ≤ t → t ≤ rx c S a →
  lx c S b ≤ t → t ≤ rx c S b → ¬ Int c S a t ∧ ¬ Int c S b t

/-- What the intersection test establishes unless the sweep is doomed. -/
def Clear (c : Ctx) (β : ℚ) (R X : Reg) (b a : ℕ) : Prop :=
  (CollE c R.lin b a → rx c R.lin b ≤ lx c R.lin a ∨ rx c R.lin a ≤ lx c R.lin b) ∧
  (¬ CollE c R.lin b a → c.f (R.lin.sid b) β = c.f (R.lin.sid a) β → lx c R.lin b ≤ β → β ≤ rx c R.lin b →
    lx c R.lin a ≤ β → β ≤ rx c R.lin a → ¬ Int c R.lin b β ∧ ¬ Int c R.lin a β) ∧
  Ck c X.lin b a

/-- Result of a step. -/
structure Res (c : Ctx) (β : ℚ) (R R' : Reg) (p : Point) (ids : List ℕ) : Prop where
  base : Base c β R' p ids
  mv : Mv R R'
  d2 : D2 c R → D2 c R'
  alt : Doom c β R' p ids ∨ (R'.minColl = R.minColl ∧ R'.lin.sweepLine = R.lin.sweepLine ∧
    ∀ e, cnt R.lin ≤ e → e < cnt R'.lin → β < lx c R'.lin e)
  rx : ∀ x, IsL R.lin x → rx c R'.lin x ≤ rx c R.lin x

theorem Res.doom (h : Res c β R R' p ids) (hb : Base c β R p ids) (d : Doom c β R p ids) : Doom c β R' p ids := by
  rcases d with d | d
  · exact Or.inl (h.mv.d1 hb.qlt d)
  · exact Or.inr (h.d2 d)

theorem Res.trans (h : Res c β R R' p ids) (h' : Res c β R' R'' p ids) : Res c β R R'' p ids := by
  refine ⟨h'.base, h.mv.trans h'.mv, fun d => h'.d2 (h.d2 d), ?_, fun x hx => (h'.rx x (h.mv.isL hx)).trans (h.rx x hx)⟩
  rcases h.alt with k | ⟨k1, k2, k3⟩
  · exact Or.inl (h'.doom h.base k)
  · rcases h'.alt with l | ⟨l1, l2, l3⟩
    · exact Or.inl l
    · refine Or.inr ⟨l1.trans k1, l2.trans k2, fun e he he' => ?_⟩
      by_cases g : e < cnt R'.lin
      · rw [h'.mv.lx g]; exact k3 e he g
      · exact l3 e (not_lt.mp g) he'

theorem Res.of_d2 (hb : Base c β R' p ids) (mv : Mv R R') (d : D2 c R')
    (hr : ∀ x, IsL R.lin x → Sweep.rx c R'.lin x ≤ Sweep.rx c R.lin x) : Res c β R R' p ids :=
  ⟨hb, mv, fun _ => d, Or.inl (Or.inr d), hr⟩

theorem div_rx_le {S S' : Lin} {e : ℕ} {m : Point} (w : WfB c S) (he : IsL S e) (d : Div S S' e m)
    (h2 : c.X m < Sweep.rx c S e) {x : ℕ} (hx : IsL S x) : Sweep.rx c S' x ≤ Sweep.rx c S x := by
  by_cases k : x = e
  · subst k; unfold Sweep.rx at *; rw [d.end_e]; exact h2.le
  · unfold Sweep.rx; rw [w.div_end he d hx k]

theorem d2_congr (h : R'.minColl = R.minColl) : D2 c R → D2 c R' := by
  rintro ⟨z, hz, k⟩
  exact ⟨z, hz, by unfold Reg.parent at *; rw [h]; exact k⟩

theorem res_mid {e : ℕ} {m : Point} (h : Base c β R p ids) (he : IsL R.lin e) (hm : m ∈ c.P)
    (hon : c.On (R.lin.sid e) m) (hint : Int c R.lin e (c.X m)) (hβ : β ≤ c.X m) :
    Res c β R (R.divideByMidpoint e m) p ids ∧ Div R.lin (R.divideByMidpoint e m).lin e m ∧
      (c.X m = β → Doom c β (R.divideByMidpoint e m) p ids) := by
  obtain ⟨b, mv, d, k⟩ := base_mid h he hm hon hint hβ
  refine ⟨⟨b, mv, d2_congr rfl, ?_, fun x hx => div_rx_le h.wf he d hint.2 hx⟩, d, fun g => Or.inl (k g)⟩
  rcases eq_or_lt_of_le hβ with g | g
  · exact Or.inl (Or.inl (k g.symm))
  · refine Or.inr ⟨rfl, rfl, fun x hx hx' => ?_⟩
    rw [d.cnt] at hx'
    have : x = cnt R.lin ∨ x = cnt R.lin + 1 := by omega
    unfold lx
    rcases this with rfl | rfl
    · rw [d.start_new]; exact g
    · rw [d.start_new']; exact g

theorem base_remove (h : Base c β R p ids) (x : ℕ) : Base c β (R.remove x) p ids ∧ Mv R (R.remove x) :=
  ⟨base_congr h h.mlen rfl rfl rfl rfl (fun y hy => ⟨h.sl y (List.mem_of_mem_eraseP hy), h.slq y (List.mem_of_mem_eraseP hy)⟩) h.mc,
    ⟨le_rfl, fun _ _ => rfl, fun _ _ => rfl, fun _ h => h, fun _ _ h => h, fun h => by simp [Reg.remove, h],
      fun _ _ => Or.inl rfl⟩⟩

theorem above_mem {e x : ℕ} (h : R.above e = some x) : x ∈ R.lin.sweepLine ∧ R.lt e x = true := by
  unfold Reg.above at h
  by_cases k : R.lin.sweepLine.any (R.sameKey e) = true
  · rw [if_pos k] at h
    exact ⟨List.mem_of_find?_eq_some h, by have := List.find?_some h; simpa using this⟩
  · rw [if_neg k] at h; cases h

theorem below_mem {e x : ℕ} (h : R.below e = some x) : x ∈ R.lin.sweepLine ∧ R.lt x e = true := by
  unfold Reg.below at h
  by_cases k : R.lin.sweepLine.any (R.sameKey e) = true
  · rw [if_pos k] at h
    refine ⟨?_, by have := List.find?_some h; simpa using this⟩
    have := List.mem_of_find?_eq_some h
    simpa using this
  · rw [if_neg k] at h; cases h

theorem keyLt_irrefl (p q : Point) : keyLt p q p q = false := by
  have h1 : orient p q p = .collinear := by rw [orient_collinear]; unfold cr; ring
  have h2 : orient p q q = .collinear := by rw [orient_collinear]; unfold cr; ring
  unfold keyLt
  simp [h1, h2]

theorem lt_ne {e x : ℕ} (h : R.lt e x = true) : e ≠ x := by
  rintro rfl
  unfold Reg.lt at h
  rw [keyLt_irrefl] at h; cases h

variable (gd : c.Good0) (hβ : ∀ i j t, Bad c i j t → β ≤ t)
include hβ

theorem res_check_above {e : ℕ} {m : Point} (h : Base c β R p ids) (he : IsL R.lin e) (hle : lx c R.lin e ≤ c.X p)
    (hm : m ∈ c.P) (hon : c.On (R.lin.sid e) m) (hint : Int c R.lin e (c.X m)) (hb : β ≤ c.X m) :
    Res c β R (R.divideCheckingAbove e m) p ids ∧ (c.X m = β → Doom c β (R.divideCheckingAbove e m) p ids) ∧
      (Doom c β (R.divideCheckingAbove e m) p ids ∨ (Div R.lin (R.divideCheckingAbove e m).lin e m ∧
        ∀ x, R.above e = some x → R.start x = R.start e → R.end x ≠ m)) := by
  have plain := res_mid h he hm hon hint hb
  unfold Reg.divideCheckingAbove
  cases ha : R.above e with
  | none => exact ⟨plain.1, plain.2.2, Or.inr ⟨plain.2.1, fun x hx => by cases hx⟩⟩
  | some x =>
    simp only
    by_cases k : R.start x = R.start e ∧ R.end x = m
    · rw [if_pos k]
      obtain ⟨hx, hlt⟩ := above_mem ha
      have hne := lt_ne hlt
      obtain ⟨xl, xp⟩ := h.sl x hx
      have k1 : R.lin.start x = R.lin.start e := k.1
      have k2 : R.lin.end x = m := k.2
      have w := h.wf
      have l1 : lx c R.lin x = lx c R.lin e := by unfold lx; rw [k1]
      have r1 : rx c R.lin x = c.X m := by unfold rx; rw [k2]
      have lrx := w.lr x xl
      have hs : R.lin.sid e ≠ R.lin.sid x := by
        intro g
        have := w.lr e he
        rcases w.disj e x he xl hne g with q | q <;> linarith
      have hc : c.Coll (R.lin.sid e) (R.lin.sid x) := by
        have a1 := w.onL e he; have a3 := w.onL x xl; have a4 := w.onR x xl
        rw [k1] at a3; rw [k2] at a4
        unfold Ctx.On at *
        refine Ctx.coll_of_two hint.1.ne ?_ ?_
        · unfold lx; rw [← a1, ← a3]
        · rw [← hon, ← a4]
      have bad := bad_of_coll w he xl hs hc l1.symm.le (by rw [l1]; exact w.lr e he)
      have hb1 := hβ _ _ _ bad
      have hpβ := h.pβ
      have ex : lx c R.lin x = β := by linarith
      obtain ⟨b1, mv1⟩ := base_remove h x
      have he1 : IsL (R.remove x).lin e := he
      obtain ⟨r2, d2, _⟩ := res_mid (R := R.remove x) b1 he1 hm hon hint hb
      have he2 := r2.mv.isL he1
      have hx2 := r2.mv.isL (e := x) xl
      have se : ((R.remove x).divideByMidpoint e m).lin.sid e = R.lin.sid e := r2.mv.lsid he1
      have sx : ((R.remove x).divideByMidpoint e m).lin.sid x = R.lin.sid x := r2.mv.lsid (e := x) xl
      obtain ⟨b3, dd⟩ := base_merge r2.base he2 hx2
        ⟨e, he2, rfl, by rw [r2.mv.lx he1.1]; show lx c R.lin e = β; linarith⟩
        ⟨x, hx2, rfl, by rw [r2.mv.lx (e := x) xl.1]; exact ex⟩ (by rw [se, sx]; exact hs)
      have mv := (mv1.trans r2.mv).trans (mv_merge e x)
      exact ⟨.of_d2 b3 mv dd (fun y hy => r2.rx y hy), fun _ => Or.inr dd, Or.inl (Or.inr dd)⟩
    · rw [if_neg k]; exact ⟨plain.1, plain.2.2, Or.inr ⟨plain.2.1, fun y hy h1 h2 => by cases hy; exact k ⟨h1, h2⟩⟩⟩

theorem res_merging {u v : ℕ} (h : Base c β R p ids) (hu : IsL R.lin u) (hv : IsL R.lin v) (hle : lx c R.lin v ≤ c.X p)
    (hc : CollE c R.lin u v) (hint : Int c R.lin u (lx c R.lin v)) :
    Base c β (R.divideMerging u (R.lin.start v) v) p ids ∧ Mv R (R.divideMerging u (R.lin.start v) v) ∧
      D2 c (R.divideMerging u (R.lin.start v) v) ∧
      ∀ x, IsL R.lin x → rx c (R.divideMerging u (R.lin.start v) v).lin x ≤ rx c R.lin x := by
  have w := h.wf
  have hvl := w.lr v hv
  have hne : u ≠ v := fun g => by rw [g] at hint; exact lt_irrefl _ hint.1
  have hs : R.lin.sid u ≠ R.lin.sid v := by
    intro g
    rcases w.disj u v hu hv hne g with k | k
    · linarith [hint.2]
    · linarith [hint.1]
  have bad := bad_of_coll w hu hv hs hc hint.1.le hint.2
  have hb := hβ _ _ _ bad
  have hpβ := h.pβ
  have ev : lx c R.lin v = β := by linarith
  have hm : R.lin.start v ∈ c.P := w.memP v hv.1
  have hon : c.On (R.lin.sid u) (R.lin.start v) := (w.onL v hv).coll hc.symm
  obtain ⟨b1, mv1, d⟩ := base_div (R' := (R.divide u (R.lin.start v)).1.push (cnt R.lin + 1)) h hu hm hon hint hb rfl rfl rfl
    (fun _ hx => hx) rfl [cnt R.lin + 1] rfl (by simp) (by simp) (by simp) (fun k => k)
  have hn := d.isL_new w.even
  have hv1 := mv1.isL hv
  obtain ⟨b2, dd⟩ := base_merge (f := v) (s := cnt R.lin) b1 hv1 hn ⟨v, hv1, rfl, by rw [mv1.lx hv.1, ev]⟩
    ⟨_, hn, rfl, by unfold lx; rw [d.start_new]; exact ev⟩ (by rw [d.sid_new, mv1.lsid hv]; exact hs.symm)
  exact ⟨b2, mv1.trans (mv_merge _ _), dd, fun x hx => div_rx_le w hu d hint.2 hx⟩

include gd

/-- The intersection test of two events. -/
theorem res_detect {b a : ℕ} (h : Base c β R p ids) (hb : IsL R.lin b) (ha : IsL R.lin a)
    (lb : lx c R.lin b ≤ c.X p) (la : lx c R.lin a ≤ c.X p) :
    (R.detectIntersection b a).lin.ok = false ∨ (Res c β R (R.detectIntersection b a) p ids ∧
      (Doom c β (R.detectIntersection b a) p ids ∨
        Clear c β R (R.detectIntersection b a) b a)) := by
  by_cases hasrt : R.detectAsserts b a = false
  · left
    unfold Reg.detectIntersection
    simp [hasrt]
  right
  rw [Bool.not_eq_false] at hasrt
  -- the state differs from `detect` only by the flag, which is unchanged
  have hR : R.detectIntersection b a = R.detect b a := by
    unfold Reg.detectIntersection
    simp only [hasrt, Bool.and_true]
  rw [hR]
  have w := h.wf
  have hpβ := h.pβ
  have hne_of : ¬ CollE c R.lin b a → R.lin.sid b ≠ R.lin.sid a := fun k g => k (by unfold CollE; rw [g]; exact Ctx.Coll.refl _)
  have far : ∀ {m : Point}, ¬ CollE c R.lin b a → c.On (R.lin.sid b) m → c.On (R.lin.sid a) m → β < c.X m →
      c.f (R.lin.sid b) β = c.f (R.lin.sid a) β → False := by
    intro m hc o1 o2 g k
    unfold Ctx.On at o1 o2
    exact hc (Ctx.coll_of_two g.ne k (by rw [← o1, ← o2]))
  have fin : ∀ {X : Reg} {m : Point}, ¬ CollE c R.lin b a → c.On (R.lin.sid b) m → c.On (R.lin.sid a) m → β ≤ c.X m →
      Res c β R X p ids → (c.X m = β → Doom c β X p ids) →
      (Doom c β X p ids ∨ (¬ Int c X.lin b (c.X m) ∧ ¬ Int c X.lin a (c.X m))) → Res c β R X p ids ∧ (Doom c β X p ids ∨
        Clear c β R X b a) := by
    intro X m hc o1 o2 g r k kk
    refine ⟨r, ?_⟩
    rcases eq_or_lt_of_le g with e | e
    · exact Or.inl (k e.symm)
    · rcases kk with kk | kk
      · exact Or.inl kk
      refine Or.inr ⟨fun z => absurd z hc, fun _ z => (far hc o1 o2 e z).elim, fun t ht _ _ _ _ => ?_⟩
      rw [r.mv.lsid hb, r.mv.lsid ha] at ht
      have : t = c.X m := by
        by_contra g
        unfold Ctx.On at o1 o2
        exact hc (Ctx.coll_of_two g ht (by rw [← o1, ← o2]))
      rw [this]; exact kk
  have fin2 : ∀ {X : Reg}, Base c β X p ids → Mv R X → D2 c X →
      (∀ x, IsL R.lin x → rx c X.lin x ≤ rx c R.lin x) → Res c β R X p ids ∧ (Doom c β X p ids ∨
        Clear c β R X b a) :=
    fun b m d hr => ⟨.of_d2 b m d hr, Or.inl (Or.inr d)⟩
  have uvp : ∀ {u v : ℕ}, (u = a ∧ v = b) ∨ (u = b ∧ v = a) → IsL R.lin u ∧ IsL R.lin v ∧ lx c R.lin v ≤ c.X p ∧
      (CollE c R.lin b a → CollE c R.lin u v) := by
    rintro u v (⟨rfl, rfl⟩ | ⟨rfl, rfl⟩)
    · exact ⟨ha, hb, lb, fun k => k.symm⟩
    · exact ⟨hb, ha, la, fun k => k⟩
  have hoc := detect_cases gd w hb ha
  generalize hX : R.detect b a = X at hoc ⊢
  cases hoc with
  | none h1 h2 =>
    refine ⟨⟨h, Mv.refl _, fun d => d, Or.inr ⟨rfl, rfl, fun e he he' => absurd he' (not_lt.mpr he)⟩, fun _ _ => le_rfl⟩,
      Or.inr ⟨h1, fun hc hf k1 k2 k3 k4 => h2 hc β hf k1 k2 k3 k4, fun t ht k1 k2 k3 k4 => ?_⟩⟩
    by_cases hc : CollE c R.lin b a
    · rcases h1 hc with z | z
      · exact ⟨fun g => by linarith [g.2], fun g => by linarith [g.1]⟩
      · exact ⟨fun g => by linarith [g.1], fun g => by linarith [g.2]⟩
    · exact h2 hc t ht k1 k2 k3 k4
  | @mid m hc hm ob oa l r hi' na =>
    have bad := bad_of_int w hb ha (hne_of hc) (by unfold Ctx.On at ob oa; rw [← ob, ← oa]) hi' l r
    have g := hβ _ _ _ bad
    obtain ⟨r1, d, k⟩ := res_mid h hb hm ob hi' g
    have hab : a ≠ b := fun z => hne_of hc (by rw [z])
    refine fin hc ob oa g r1 k (Or.inr ⟨fun z => ?_, fun z => na ?_⟩)
    · have := z.2; unfold Sweep.rx at this; rw [d.end_e] at this; exact lt_irrefl _ this
    · have e1 := r1.mv.lx (c := c) ha.1
      have e2 : Sweep.rx c (R.divideByMidpoint b m).lin a = Sweep.rx c R.lin a := by
        unfold Sweep.rx; rw [w.div_end hb d ha hab]
      exact ⟨by rw [← e1]; exact z.1, by rw [← e2]; exact z.2⟩
  | @above m hc hm ob oa l r hi' nb =>
    have bad := bad_of_int w ha hb (hne_of hc).symm (by unfold Ctx.On at ob oa; rw [← ob, ← oa]) hi' l r
    have g := hβ _ _ _ bad
    obtain ⟨r1, k, dd⟩ := res_check_above hβ h ha la hm oa hi' g
    have hab : b ≠ a := fun z => hne_of hc (by rw [z])
    refine fin hc ob oa g r1 k (dd.imp_right fun ⟨d, _⟩ => ⟨fun z => nb ?_, fun z => ?_⟩)
    · have e1 := r1.mv.lx (c := c) hb.1
      have e2 : Sweep.rx c (R.divideCheckingAbove a m).lin b = Sweep.rx c R.lin b := by
        unfold Sweep.rx; rw [w.div_end ha d hb hab]
      exact ⟨by rw [← e1]; exact z.1, by rw [← e2]; exact z.2⟩
    · have := z.2; unfold Sweep.rx at this; rw [d.end_e] at this; exact lt_irrefl _ this
  | @both m hc hm ob oa ib ia =>
    have bad := bad_of_int w hb ha (hne_of hc) (by unfold Ctx.On at ob oa; rw [← ob, ← oa]) ib ia.1.le ia.2.le
    have g := hβ _ _ _ bad
    obtain ⟨r1, d, k⟩ := res_mid h hb hm ob ib g
    have hab : a ≠ b := fun z => hne_of hc (by rw [z])
    have ha1 := r1.mv.isL ha
    obtain ⟨r2, k2, dd⟩ := res_check_above hβ r1.base ha1 (by rw [r1.mv.lx ha.1]; exact la) hm
      (by rw [r1.mv.lsid ha]; exact oa)
      ⟨by rw [r1.mv.lx ha.1]; exact ia.1, by unfold rx; rw [w.div_end hb d ha hab]; exact ia.2⟩ g
    refine fin hc ob oa g (r1.trans r2) k2 (dd.imp_right fun ⟨d2, _⟩ => ⟨fun z => ?_, fun z => ?_⟩)
    · have := z.2
      unfold Sweep.rx at this
      rw [r1.base.wf.div_end ha1 d2 (r1.mv.isL hb) hab.symm, d.end_e] at this
      exact lt_irrefl _ this
    · have := z.2; unfold Sweep.rx at this; rw [d2.end_e] at this; exact lt_irrefl _ this
  | longer hc hs =>
    have el : lx c R.lin a = lx c R.lin b := by unfold lx; rw [hs]
    -- the ends are different
    have hend : R.lin.end a ≠ R.lin.end b := by
      intro he
      have o1 : orient (R.end b) (R.start b) (R.start a) = .collinear := by
        rw [show R.start a = R.start b from hs, orient_collinear]; unfold cr; ring
      have o2 : orient (R.end b) (R.start b) (R.end a) = .collinear := by
        rw [show R.end a = R.end b from he, orient_collinear]; unfold cr; ring
      unfold Reg.detectAsserts at hasrt
      simp only [o1, o2, if_true] at hasrt
      rw [decide_eq_true_iff] at hasrt
      exact hasrt hs he
    have hab : a ≠ b := fun z => hend (by rw [z])
    have l1 := w.lr a ha
    have l2 := w.lr b hb
    have hsid : R.lin.sid b ≠ R.lin.sid a := by
      intro g
      rcases w.disj b a hb ha hab.symm g with k | k <;> linarith
    have bad := bad_of_coll w hb ha hsid hc el.symm.le (by linarith)
    have g := hβ _ _ _ bad
    have ea : lx c R.lin a = β := by linarith
    have eb : lx c R.lin b = β := by linarith
    have qa : R.lin.end a ∈ c.P := w.memP _ (w.oppLt a ha.1)
    have qb : R.lin.end b ∈ c.P := w.memP _ (w.oppLt b hb.1)
    have main : ∀ u v, IsL R.lin u → IsL R.lin v → CollE c R.lin u v → lx c R.lin u = β → lx c R.lin v = β →
        rx c R.lin v < rx c R.lin u →
        Base c β ((((R.remove u).divide u (R.lin.end v)).1.push (cnt R.lin)).merge a b) p ids ∧
        Mv R ((((R.remove u).divide u (R.lin.end v)).1.push (cnt R.lin)).merge a b) ∧
        D2 c ((((R.remove u).divide u (R.lin.end v)).1.push (cnt R.lin)).merge a b) ∧
        ∀ x, IsL R.lin x → rx c ((((R.remove u).divide u (R.lin.end v)).1.push (cnt R.lin)).merge a b).lin x ≤
          rx c R.lin x := by
      intro u v hu hv huv lu lv hr
      obtain ⟨b1, mv1⟩ := base_remove h u
      have lrv := w.lr v hv
      obtain ⟨b2, mv2, d⟩ := base_div (R' := ((R.remove u).divide u (R.lin.end v)).1.push (cnt R.lin)) (e := u) (m := R.lin.end v) b1 hu
        (w.memP _ (w.oppLt v hv.1)) ((w.onR v hv).coll huv.symm)
        ⟨by show lx c R.lin u < rx c R.lin v; linarith, hr⟩ (by show β ≤ rx c R.lin v; linarith) rfl rfl rfl
        (fun _ hx => hx) rfl [cnt R.lin] rfl (by simp) (fun x hx => Or.inl (List.mem_singleton.mp hx))
        (fun z => by have z : rx c R.lin v = β := z; linarith) (fun k => k)
      have mv := mv1.trans mv2
      have ha2 := mv.isL ha
      have hb2 := mv.isL hb
      obtain ⟨b3, dd⟩ := base_merge b2 ha2 hb2 ⟨a, ha2, rfl, by rw [mv.lx ha.1, ea]⟩ ⟨b, hb2, rfl, by rw [mv.lx hb.1, eb]⟩
        (by rw [mv.lsid ha, mv.lsid hb]; exact hsid.symm)
      exact ⟨b3, mv.trans (mv_merge _ _), dd, fun x hx => div_rx_le (S := (R.remove u).lin) b1.wf hu d hr hx⟩
    unfold Reg.divideLonger
    have cmp : (R.end a).ltB (R.end b) = true ↔ rx c R.lin a < rx c R.lin b := by
      rw [Point.ltB_iff]; exact gd.lt_iff qa qb
    by_cases k : (R.end a).ltB (R.end b) = true
    · rw [if_pos k, if_pos k]
      obtain ⟨m1, m2, m3, m4⟩ := main b a hb ha hc eb ea (cmp.mp k)
      exact fin2 m1 m2 m3 m4
    · rw [if_neg k, if_neg k]
      have : rx c R.lin b < rx c R.lin a := by
        refine lt_of_le_of_ne (not_lt.mp fun z => k (cmp.mpr z)) fun z => hend ((gd.eq_iff qa qb).mpr z.symm)
      obtain ⟨m1, m2, m3, m4⟩ := main a b ha hb hc.symm ea eb this
      exact fin2 m1 m2 m3 m4
  | same huv hc hi' he =>
    obtain ⟨hu, hv, lv, hc'⟩ := uvp huv
    obtain ⟨m1, m2, m3, m4⟩ := res_merging hβ h hu hv lv (hc' hc) hi'
    exact fin2 m1 m2 m3 m4
  | @inside u v huv hc hi' hi2 =>
    obtain ⟨hu, hv, lv, hc'⟩ := uvp huv
    have hc' := hc' hc
    have lrv := w.lr v hv
    have hne : u ≠ v := fun g => by rw [g] at hi'; exact lt_irrefl _ hi'.1
    have hs : R.lin.sid u ≠ R.lin.sid v := by
      intro g
      rcases w.disj u v hu hv hne g with k | k
      · linarith [hi'.2]
      · linarith [hi'.1]
    have g := hβ _ _ _ (bad_of_coll w hu hv hs hc' hi'.1.le hi'.2)
    obtain ⟨r1, d, _⟩ := res_mid (m := R.lin.end v) h hu (w.memP _ (w.oppLt v hv.1)) ((w.onR v hv).coll hc'.symm) hi2
      (by show β ≤ rx c R.lin v; linarith)
    have sv : R.lin.start v = (R.divideByMidpoint u (R.lin.end v)).lin.start v := (r1.mv.start v hv.1).symm
    unfold Reg.divideByMidSegment
    obtain ⟨m1, m2, m3, m4⟩ := res_merging (R := R.divideByMidpoint u (R.lin.end v)) (u := u) (v := v) hβ r1.base (r1.mv.isL hu)
      (r1.mv.isL hv) (by rw [r1.mv.lx hv.1]; exact lv) (by unfold CollE; rw [r1.mv.lsid hu, r1.mv.lsid hv]; exact hc')
      ⟨by rw [r1.mv.lx hu.1, r1.mv.lx hv.1]; exact hi'.1, by
        rw [r1.mv.lx hv.1]; unfold rx; rw [d.end_e]; exact lrv⟩
    rw [← sv] at m1 m2 m3 m4
    exact fin2 m1 (r1.mv.trans m2) m3 (fun x hx => (m4 x (r1.mv.isL hx)).trans (r1.rx x hx))
  | @overlap u v huv hc hi' hi2 =>
    obtain ⟨hu, hv, lv, hc'⟩ := uvp huv
    have hc' := hc' hc
    have lru := w.lr u hu
    have hne : u ≠ v := fun g => by rw [g] at hi'; exact lt_irrefl _ hi'.1
    have hs : R.lin.sid u ≠ R.lin.sid v := by
      intro g
      rcases w.disj u v hu hv hne g with k | k
      · linarith [hi'.2]
      · linarith [hi'.1, w.lr v hv]
    have g := hβ _ _ _ (bad_of_coll w hu hv hs hc' hi'.1.le hi'.2)
    obtain ⟨r1, d, _⟩ := res_mid (m := R.lin.end u) h hv (w.memP _ (w.oppLt u hu.1)) ((w.onR u hu).coll hc') hi2
      (by show β ≤ rx c R.lin u; linarith [hi2.1])
    have sv : R.lin.start v = (R.divideByMidpoint v (R.lin.end u)).lin.start v := (r1.mv.start v hv.1).symm
    unfold Reg.divideOverlapping
    obtain ⟨m1, m2, m3, m4⟩ := res_merging (R := R.divideByMidpoint v (R.lin.end u)) (u := u) (v := v) hβ r1.base (r1.mv.isL hu)
      (r1.mv.isL hv) (by rw [r1.mv.lx hv.1]; exact lv) (by unfold CollE; rw [r1.mv.lsid hu, r1.mv.lsid hv]; exact hc')
      ⟨by rw [r1.mv.lx hu.1, r1.mv.lx hv.1]; exact hi'.1, by
        rw [r1.mv.lx hv.1]; unfold rx; rw [w.div_end hv d hu hne]; exact hi'.2⟩
    rw [← sv] at m1 m2 m3 m4
    exact fin2 m1 (r1.mv.trans m2) m3 (fun x hx => (m4 x (r1.mv.isL hx)).trans (r1.rx x hx))

end Rene.BO
