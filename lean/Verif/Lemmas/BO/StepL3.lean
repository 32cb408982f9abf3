import Verif.Lemmas.BO.StepL2

/-! Processing a left event before the first bad contact: a collinear event on the line. -/

namespace Rene.BO
open Rene Spec Sweep

variable {c : Ctx} {β : ℚ} {R R' : Reg} {p : Point} {ids : List ℕ}

/-- The order of collinear events with different starts depends on the starts only. -/
theorem lt_coll_starts {Z Z' : Reg} (w : WfB c Z.lin) (w' : WfB c Z'.lin) {x y : ℕ} (hx : IsL Z.lin x) (hy : IsL Z.lin y)
    (hx' : IsL Z'.lin x) (hy' : IsL Z'.lin y) (hc : CollE c Z.lin x y) (sx : Z'.lin.sid x = Z.lin.sid x)
    (sy : Z'.lin.sid y = Z.lin.sid y) (ax : Z'.lin.start x = Z.lin.start x) (ay : Z'.lin.start y = Z.lin.start y)
    (hs : Z.lin.start x ≠ Z.lin.start y) : Z'.lt x y = Z.lt x y := by
  have hc' : CollE c Z'.lin x y := by unfold CollE; rw [sx, sy]; exact hc
  rw [lt_coll w hx hy hc, lt_coll w' hx' hy' hc', ax, ay]
  rw [Ne, Point.eq_iff] at hs
  generalize Z.lin.start x = a at *
  generalize Z.lin.start y = b at *
  by_cases h1 : a.y = b.y
  · have h2 : a.x ≠ b.x := fun k => hs ⟨k, h1⟩
    rw [if_pos h1, if_pos h1, if_pos h2, if_pos h2]
  · rw [if_neg h1, if_neg h1]

theorem Nice.rx_keep {Z X : Reg} (h : Nice c β Z X p ids) (hb : Base c β Z p ids) {y : ℕ} (hy : IsL Z.lin y)
    (k : c.X p < Sweep.rx c Z.lin y) : c.X p < Sweep.rx c X.lin y := by
  have pb := hb.pβ
  rcases h.mv.oppOr y hy with g | g
  · have : Sweep.rx c X.lin y = Sweep.rx c Z.lin y := by
      unfold Sweep.rx Lin.end; rw [g, h.mv.start _ (hb.wf.oppLt y hy.1)]
    rw [this]; exact k
  · have := h.new _ g (h.base.wf.oppLt y (h.mv.isL hy).1)
    have e : Sweep.rx c X.lin y = Sweep.lx c X.lin (X.lin.opp y) := rfl
    rw [e]; linarith

theorem Nice.ab {Z X : Reg} (h : Nice c β Z X p ids) {x y : ℕ} (hx : IsL Z.lin x) (hy : IsL Z.lin y)
    (k : Ab c Z.lin x y) : Ab c X.lin x y := by
  unfold Ab at *
  rw [h.mv.lsid hx, h.mv.lsid hy, h.mv.lx hx.1, h.mv.lx hy.1]; exact k

/-- A line around an event with a collinear neighbour. -/
structure Around (c : Ctx) (Z : Reg) (p : Point) (e k : ℕ) (A B : List ℕ) : Prop where
  ie : IsL Z.lin e
  ik : IsL Z.lin k
  isA : ∀ x ∈ A, IsL Z.lin x
  isB : ∀ x ∈ B, IsL Z.lin x
  coll : CollE c Z.lin e k
  le : lx c Z.lin e = c.X p
  lk : lx c Z.lin k ≤ c.X p
  lA : ∀ x ∈ A, lx c Z.lin x ≤ c.X p
  lB : ∀ x ∈ B, lx c Z.lin x ≤ c.X p
  re : c.X p < rx c Z.lin e
  rk : c.X p < rx c Z.lin k
  rA : ∀ x ∈ A, c.X p < rx c Z.lin x
  rB : ∀ x ∈ B, c.X p < rx c Z.lin x
  abA : ∀ x ∈ A, Ab c Z.lin x e
  abB : ∀ x ∈ B, Ab c Z.lin e x

theorem Around.nice {Z X : Reg} {e k : ℕ} {A B : List ℕ} (h : Around c Z p e k A B) (n : Nice c β Z X p ids)
    (hb : Base c β Z p ids) : Around c X p e k A B :=
  ⟨n.mv.isL h.ie, n.mv.isL h.ik, fun x hx => n.mv.isL (h.isA x hx), fun x hx => n.mv.isL (h.isB x hx),
    by unfold CollE; rw [n.mv.lsid h.ie, n.mv.lsid h.ik]; exact h.coll,
    by rw [n.mv.lx h.ie.1]; exact h.le, by rw [n.mv.lx h.ik.1]; exact h.lk,
    fun x hx => by rw [n.mv.lx (h.isA x hx).1]; exact h.lA x hx,
    fun x hx => by rw [n.mv.lx (h.isB x hx).1]; exact h.lB x hx,
    n.rx_keep hb h.ie h.re, n.rx_keep hb h.ik h.rk, fun x hx => n.rx_keep hb (h.isA x hx) (h.rA x hx),
    fun x hx => n.rx_keep hb (h.isB x hx) (h.rB x hx), fun x hx => n.ab (h.isA x hx) h.ie (h.abA x hx),
    fun x hx => n.ab h.ie (h.isB x hx) (h.abB x hx)⟩

section
variable {Z : Reg} {e k : ℕ} {A B : List ℕ} (h : Around c Z p e k A B) (w : WfB c Z.lin)
include h w

theorem Around.ltA {x : ℕ} (hx : x ∈ A) : Z.lt x e = true ∧ Z.lt e x = false := by
  have l1 := h.lA x hx
  have l2 := h.le
  have l3 := h.re
  have l4 := h.rA x hx
  exact lt_of_ab w (h.isA x hx) h.ie (by linarith) (by linarith) (h.abA x hx)

theorem Around.ltB {x : ℕ} (hx : x ∈ B) : Z.lt e x = true ∧ Z.lt x e = false := by
  have l1 := h.lB x hx
  have l2 := h.le
  have l3 := h.re
  have l4 := h.rB x hx
  exact lt_of_ab w h.ie (h.isB x hx) (by linarith) (by linarith) (h.abB x hx)

theorem Around.splitK (hk : Z.lt e k = true) : Split Z.lt e A (k :: B) := by
  have hk' := lt_coll_asymm w h.ie h.ik h.coll hk
  have self : Z.lt e e = false := keyLt_irrefl _ _
  refine ⟨fun x hx => (h.ltA w hx).1, fun x hx => (h.ltA w hx).2, fun x hx => ?_, fun x hx => ?_, self⟩
  · rcases List.mem_cons.mp hx with rfl | hx
    · exact hk'
    · exact (h.ltB w hx).2
  · rcases List.mem_cons.mp hx with rfl | hx
    · exact hk
    · exact (h.ltB w hx).1

theorem Around.splitK' (hk : Z.lt k e = true) : Split Z.lt e (A ++ [k]) B := by
  have hk' := lt_coll_asymm w h.ik h.ie h.coll.symm hk
  have self : Z.lt e e = false := keyLt_irrefl _ _
  refine ⟨fun x hx => ?_, fun x hx => ?_, fun x hx => (h.ltB w hx).2, fun x hx => (h.ltB w hx).1, self⟩
  · rcases List.mem_append.mp hx with hx | hx
    · exact (h.ltA w hx).1
    · rw [List.mem_singleton.mp hx]; exact hk
  · rcases List.mem_append.mp hx with hx | hx
    · exact (h.ltA w hx).2
    · rw [List.mem_singleton.mp hx]; exact hk'

end

section
variable (gd : c.Good0) (hβ : ∀ i j t, Bad c i j t → β ≤ t)
include gd hβ

/-- The test of the event and a collinear one finds something bad. -/
theorem around_detect {Z : Reg} {e k : ℕ} {A B : List ℕ} (h : Around c Z p e k A B) (hb : Base c β Z p ids) {u v : ℕ}
    (huv : (u = e ∧ v = k) ∨ (u = k ∧ v = e)) :
    (Z.detectIntersection u v).lin.ok = false ∨
      (Base c β (Z.detectIntersection u v) p ids ∧ Mv Z (Z.detectIntersection u v) ∧
        Doom c β (Z.detectIntersection u v) p ids) := by
  have l1 := h.le
  have l2 := h.lk
  have l3 := h.re
  have l4 := h.rk
  rcases huv with ⟨rfl, rfl⟩ | ⟨rfl, rfl⟩
  · rcases nice_detect gd hβ hb h.ie h.ik l1.le l2 with z | z | ⟨_, z⟩
    · exact Or.inl z
    · exact Or.inr z
    · exfalso
      rcases z.1 h.coll with z | z <;> linarith
  · rcases nice_detect gd hβ hb h.ik h.ie l2 l1.le with z | z | ⟨_, z⟩
    · exact Or.inl z
    · exact Or.inr z
    · exfalso
      rcases z.1 h.coll.symm with z | z <;> linarith

/-- The first test keeps the order of the event and a collinear one above it. -/
theorem around_keep {Z : Reg} {e k b : ℕ} {A B : List ℕ} (h : Around c Z p e k A B) (hb : Base c β Z p ids)
    (line : Z.lin.sweepLine = A ++ e :: k :: B) (hk : Z.lt e k = true) (hbA : b ∈ A) (ck : Ck c Z.lin b k)
    (nc : ¬ CollE c Z.lin b e) (hn : Nice c β Z (Z.detectIntersection b e) p ids) :
    Doom c β (Z.detect b e) p ids ∨ (Z.detect b e).lt e k = true := by
  have w := hb.wf
  have ib := h.isA b hbA
  have lb := h.lA b hbA
  have out := detect_cases gd hb.wf ib h.ie
  have hbe : b ≠ e := fun g => nc (by rw [g]; exact ⟨rfl, rfl⟩)
  have hbk : b ≠ k := fun g => nc (by rw [g]; exact h.coll.symm)
  have hek : e ≠ k := lt_ne hk
  have hsid : Z.lin.sid b ≠ Z.lin.sid e := fun g => nc (by unfold CollE; rw [g]; exact Ctx.Coll.refl _)
  have fe : ∀ {m : Point}, c.On (Z.lin.sid b) m → c.On (Z.lin.sid e) m →
      c.f (Z.lin.sid b) (c.X m) = c.f (Z.lin.sid e) (c.X m) := by
    intro m o1 o2; unfold Ctx.On at o1 o2; rw [← o1, ← o2]
  have pb := hb.pβ
  -- what to do after a division of `e`
  have fin : ∀ W X : Reg, Mv Z W → Base c β W p ids → Around c W p e k A B → W.lin.end k = Z.lin.end k →
      W.lin.end e = Z.lin.end e → W.lt e k = true → W.lin.sweepLine = A ++ e :: k :: B →
      ∀ m : Point, c.On (Z.lin.sid e) m → c.On (Z.lin.sid b) m → lx c Z.lin b ≤ c.X m → c.X m ≤ rx c Z.lin b →
      Int c W.lin e (c.X m) → Div W.lin X.lin e m → Base c β X p ids →
      (∀ x, W.above e = some x → W.start x = W.start e → W.end x ≠ m) → Z.lin.start e = Z.lin.start k →
      X.lt e k = true := by
    intro W X mvW bW aW ek ee ltW lineW m on ob l1 l2 int d bX nx hs
    have hab : W.above e = some k := by
      rw [split_above (aW.splitK bW.wf ltW) lineW]; rfl
    have s1 : W.lin.start e = Z.lin.start e := mvW.start e h.ie.1
    have s2 : W.lin.start k = Z.lin.start k := mvW.start k h.ik.1
    have nk : W.lin.end k ≠ m := nx k hab (by show W.lin.start k = W.lin.start e; rw [s1, s2]; exact hs.symm)
    rw [ek] at nk
    have onk : c.On (Z.lin.sid k) m := on.coll h.coll
    have onk' := w.onR k h.ik
    have gt : rx c Z.lin k < c.X m := by
      by_contra g
      have g := not_lt.mp g
      have lke : lx c Z.lin k = lx c Z.lin e := by unfold lx; rw [hs]
      have lm : lx c Z.lin e < c.X m := by rw [← mvW.lx h.ie.1]; exact int.1
      have := (ck (c.X m) (by unfold Ctx.On at onk ob; rw [← onk, ← ob]) l1 l2 (by linarith) g).2
      have : c.X m = rx c Z.lin k := by
        by_contra g'
        exact this ⟨by linarith, lt_of_le_of_ne g g'⟩
      exact nk (onk'.eq_of_X onk this.symm)
    have cx := d.cnt
    have dstart : ∀ x < cnt W.lin, X.lin.start x = W.lin.start x := fun x hx => d.start_old x hx
    have isd : ∀ x, IsL W.lin x → IsL X.lin x := fun x hx => ⟨by rw [cx]; have := hx.1; omega, hx.2⟩
    refine lt_coll_keep (Z := W) (Z' := X) bW.wf bX.wf aW.ie aW.ik (isd e aW.ie) (isd k aW.ik) aW.coll
      (d.sid_old e aW.ie.1) (d.sid_old k aW.ik.1) (dstart e aW.ie.1) (dstart k aW.ik.1)
      (bW.wf.div_end aW.ie d aW.ik hek.symm) ?_ ?_ (by rw [s1, s2]; exact hs) ltW
    · show rx c W.lin k < c.X (X.lin.end e)
      rw [d.end_e]
      have : rx c W.lin k = rx c Z.lin k := by unfold rx; rw [ek]
      rw [this]; exact gt
    · show c.X (X.lin.end e) ≤ rx c W.lin e
      rw [d.end_e]; exact int.2.le
  by_cases hs : Z.lin.start e = Z.lin.start k
  · generalize hX : Z.detect b e = X at out ⊢
    cases out with
    | none h1 h2 => exact Or.inr hk
    | @mid m hc hm ob oa l r hbI na =>
      obtain ⟨r, d, _⟩ := res_mid hb ib hm ob hbI (hβ _ _ _ (bad_of_int w ib h.ie hsid (fe ob oa) hbI l r))
      right
      have e1 : (Z.divideByMidpoint b m).lin.end e = Z.lin.end e := w.div_end ib d h.ie hbe.symm
      have e2 : (Z.divideByMidpoint b m).lin.end k = Z.lin.end k := w.div_end ib d h.ik hbk.symm
      have e3 := d.start_old e h.ie.1
      have e4 := d.start_old k h.ik.1
      have : (Z.divideByMidpoint b m).lt e k = Z.lt e k := by
        unfold Reg.lt Reg.start Reg.end
        rw [e1, e2, e3, e4]
      rw [this]; exact hk
    | @above m hc hm ob oa l r haI nb =>
      have bad := hβ _ _ _ (bad_of_int w h.ie ib hsid.symm (fe ob oa).symm haI l r)
      obtain ⟨r1, _, alt⟩ := res_check_above hβ hb h.ie h.le.le hm oa haI bad
      rcases alt with k1 | ⟨d, nx⟩
      · exact Or.inl k1
      · right
        exact fin Z _ (Mv.refl _) hb h rfl rfl hk line m oa ob l r haI d r1.base nx hs
    | @both m hc hm ob oa hbI haI =>
      have bad := hβ _ _ _ (bad_of_int w ib h.ie hsid (fe ob oa) hbI haI.1.le haI.2.le)
      obtain ⟨r1, d1, k1⟩ := res_mid hb ib hm ob hbI bad
      have e1 : (Z.divideByMidpoint b m).lin.end e = Z.lin.end e := w.div_end ib d1 h.ie hbe.symm
      have e2 : (Z.divideByMidpoint b m).lin.end k = Z.lin.end k := w.div_end ib d1 h.ik hbk.symm
      have e3 := d1.start_old e h.ie.1
      have e4 := d1.start_old k h.ik.1
      have hlt : (Z.divideByMidpoint b m).lt e k = Z.lt e k := by
        unfold Reg.lt Reg.start Reg.end
        rw [e1, e2, e3, e4]
      have int1 : Int c (Z.divideByMidpoint b m).lin e (c.X m) := by
        refine ⟨by rw [r1.mv.lx h.ie.1]; exact haI.1, ?_⟩
        have : rx c (Z.divideByMidpoint b m).lin e = rx c Z.lin e := by unfold rx; rw [e1]
        rw [this]; exact haI.2
      obtain ⟨r2, _, alt⟩ := res_check_above hβ r1.base (r1.mv.isL h.ie) (by rw [r1.mv.lx h.ie.1]; exact h.le.le) hm
        (by rw [r1.mv.lsid h.ie]; exact oa) int1 bad
      rcases r1.alt with z | ⟨_, z2, z3⟩
      · exact Or.inl (r2.doom r1.base z)
      rcases alt with k1 | ⟨d, nx⟩
      · exact Or.inl k1
      · right
        exact fin _ _ r1.mv r1.base (h.nice ⟨r1.base, r1.mv, z2, z3, r1.rx⟩ hb) e2 e1 (hlt.trans hk) (z2.trans line) m oa ob
          hbI.1.le hbI.2.le int1 d r2.base nx hs
    | longer hc hs => exact absurd hc nc
    | same huv hc hu he => exact absurd hc nc
    | inside huv hc hu hu' => exact absurd hc nc
    | overlap huv hc hu hv => exact absurd hc nc
  · right
    have := lt_coll_starts (Z' := Z.detectIntersection b e) w hn.base.wf h.ie h.ik (hn.mv.isL h.ie) (hn.mv.isL h.ik) h.coll
      (hn.mv.lsid h.ie) (hn.mv.lsid h.ik) (hn.mv.start e h.ie.1) (hn.mv.start k h.ik.1) hs
    exact this.trans hk

end

section
variable {e : ℕ} (gd : c.Good0) (hβ : ∀ i j t, Bad c i j t → β ≤ t) (hb : Base c β R p ids) (h : Clean c β R p)
  (low : Low c R e) (hp : lx c R.lin e = c.X p) (h0 : e % 2 = 0)
include gd hβ hb h low hp h0

/-- A collinear event on the line. -/
theorem left_coll {k : ℕ} (hk : k ∈ R.lin.sweepLine) (hc : CollE c R.lin e k) :
    ((pop R e).processLeft e).lin.ok = false ∨ Doom c β ((pop R e).processLeft e) p (ids ++ [R.sid e]) := by
  have el := left_isL hb h low hp h0
  obtain ⟨b0, _⟩ := base_pop hb low.mem hp
  have eT : e ∉ R.lin.sweepLine := fun k => hb.slq e k low.mem
  cases hf : (pop R e).find e with
  | some q => exact Or.inr (left_find gd hβ b0 (R := pop R e) el hp eT hf)
  | none =>
  obtain ⟨T1, T2, hT⟩ := List.append_of_mem hk
  have on := left_on gd hb h low hp h0
  have fk : c.f (R.lin.sid k) (c.X p) = p.y := by rw [← on]; exact (hc.f_eq _).symm
  have srt := h.sorted
  have vals := left_vals gd hb h low hp h0
  have nd := h.tnd
  rw [hT, List.pairwise_append, List.pairwise_cons] at srt vals
  rw [hT, List.nodup_append, List.nodup_cons] at nd
  have m1 : ∀ x ∈ T1, x ∈ R.lin.sweepLine := fun x hx => by rw [hT]; exact List.mem_append_left _ hx
  have m2 : ∀ x ∈ T2, x ∈ R.lin.sweepLine := fun x hx => by
    rw [hT]; exact List.mem_append_right _ (List.mem_cons_of_mem _ hx)
  have ab1 : ∀ x ∈ T1, Ab c R.lin x e := by
    intro x hx
    rw [(left_ab gd hb h low hp h0 (m1 x hx)).1]
    have v := vals.2.2 x hx k (by simp)
    rw [fk] at v
    rcases eq_or_lt_of_le v with v | v
    · right
      refine ⟨v, ?_⟩
      have hne : x ≠ k := nd.2.2 x hx k (by simp)
      obtain ⟨z1, z2⟩ := left_height hb h low hp h0 (m1 x hx) hk hne v fk
      have s := srt.2.2 x hx k (by simp)
      unfold Ab at s
      rw [z1, z2, max_self] at s
      rcases s with s | ⟨_, s⟩
      · rw [v, fk] at s; exact absurd s (lt_irrefl _)
      · rw [hc.1]; exact s
    · exact Or.inl v
  have ab2 : ∀ x ∈ T2, Ab c R.lin e x := by
    intro x hx
    rw [(left_ab gd hb h low hp h0 (m2 x hx)).2]
    have v := vals.2.1.1 x hx
    rw [fk] at v
    rcases eq_or_lt_of_le v with v | v
    · right
      refine ⟨v.symm, ?_⟩
      have hne : x ≠ k := fun g => nd.2.1.1 (g ▸ hx)
      obtain ⟨z1, z2⟩ := left_height hb h low hp h0 (m2 x hx) hk hne v.symm fk
      have s := srt.2.1.1 x hx
      unfold Ab at s
      rw [z1, z2, max_self] at s
      rcases s with s | ⟨_, s⟩
      · rw [← v, fk] at s; exact absurd s (lt_irrefl _)
      · rw [hc.1]; exact s
    · exact Or.inl v
  have rxp := fun x (hx : x ∈ R.lin.sweepLine) => left_rx hb h low hp h0 hx
  have lre := hb.wf.lr e el
  have ar : Around c (pop R e) p e k T1 T2 :=
    ⟨el, (hb.sl k hk).1, fun x hx => (hb.sl x (m1 x hx)).1, fun x hx => (hb.sl x (m2 x hx)).1, hc, hp, (hb.sl k hk).2,
      fun x hx => (hb.sl x (m1 x hx)).2, fun x hx => (hb.sl x (m2 x hx)).2, by
        show c.X p < rx c R.lin e
        linarith, rxp k hk, fun x hx => rxp x (m1 x hx), fun x hx => rxp x (m2 x hx), ab1, ab2⟩
  obtain ⟨b1, mv1⟩ := base_add b0 (e := e) el hp.le (fun k => ((mem_pop hb.qnd).mp k).1 rfl)
  have arZ : Around c ((pop R e).add e) p e k T1 T2 := ⟨ar.1, ar.2, ar.3, ar.4, ar.5, ar.6, ar.7, ar.8, ar.9, ar.10, ar.11, ar.12, ar.13, ar.14, ar.15⟩
  rw [leftTwo_eq gd hβ hb h low hp h0 hf, leftOne_eq]
  have leZ : lx c ((pop R e).add e).lin e ≤ c.X p := hp.le
  -- the end of the argument, once something bad was found by the first test
  have fin1 : ∀ X : Reg, X.lin.ok = false ∨ (Base c β X p (ids ++ [R.sid e]) ∧ Mv ((pop R e).add e) X ∧
      Doom c β X p (ids ++ [R.sid e])) → (leftTwo X e).lin.ok = false ∨ Doom c β (leftTwo X e) p (ids ++ [R.sid e]) := by
    rintro X (k | ⟨bX, mvX, dX⟩)
    · left
      unfold leftTwo
      cases X.above e with
      | none => exact k
      | some a => exact detect_ok k
    · exact leftTwo_doom gd hβ bX (mvX.isL arZ.ie) (by rw [mvX.lx arZ.ie.1]; exact leZ) dX
  by_cases c1 : (pop R e).lt k e = true
  · have sp := ar.splitK' b0.wf c1
    have tw : (pop R e).lin.sweepLine = (T1 ++ [k]) ++ T2 := by
      show R.lin.sweepLine = _
      rw [hT]; simp
    have sp' := span_eq (P := fun x => (pop R e).lt x e) sp.a1 sp.b1
    have lineZ : ((pop R e).add e).lin.sweepLine = (T1 ++ [k]) ++ e :: T2 := by
      show (pop R e).lin.sweepLine.takeWhile _ ++ e :: (pop R e).lin.sweepLine.dropWhile _ = _
      rw [tw, sp'.1, sp'.2]
    have hbel : ((pop R e).add e).below e = some k := by
      rw [split_below (Z := (pop R e).add e) sp lineZ]; simp
    rw [hbel]
    exact fin1 _ (around_detect gd hβ arZ b1 (Or.inr ⟨rfl, rfl⟩))
  · by_cases c3 : (pop R e).lt e k = true
    · have sp := ar.splitK b0.wf c3
      have sp' := span_eq (P := fun x => (pop R e).lt x e) sp.a1 sp.b1
      have tw : (pop R e).lin.sweepLine = T1 ++ k :: T2 := hT
      have lineZ : ((pop R e).add e).lin.sweepLine = T1 ++ e :: k :: T2 := by
        show (pop R e).lin.sweepLine.takeWhile _ ++ e :: (pop R e).lin.sweepLine.dropWhile _ = _
        rw [tw, sp'.1, sp'.2]
      rw [split_below (Z := (pop R e).add e) sp lineZ]
      -- the end of the argument, if the order is kept
      have fin2 : ∀ X : Reg, Nice c β ((pop R e).add e) X p (ids ++ [R.sid e]) → X.lt e k = true →
          (leftTwo X e).lin.ok = false ∨ Doom c β (leftTwo X e) p (ids ++ [R.sid e]) := by
        intro X nX ltX
        have arX := arZ.nice nX b1
        have lineX : X.lin.sweepLine = T1 ++ e :: k :: T2 := by rw [nX.line, lineZ]
        unfold leftTwo
        rw [split_above (arX.splitK nX.base.wf ltX) lineX]
        rcases around_detect gd hβ arX nX.base (Or.inl ⟨rfl, rfl⟩) with z | ⟨_, _, z⟩
        · exact Or.inl z
        · exact Or.inr z
      cases hAl : T1.getLast? with
      | none => exact fin2 _ (Nice.refl b1) c3
      | some b =>
        have hbA : b ∈ T1 := List.mem_of_getLast? hAl
        have nc : ¬ CollE c ((pop R e).add e).lin b e := (ab1 b hbA).not_coll
        have ck : Ck c ((pop R e).add e).lin b k := by
          have := h.chain
          rw [hT, List.isChain_append] at this
          exact this.2.2 b hAl k rfl
        rcases nice_detect gd hβ b1 (arZ.isA b hbA) arZ.ie (arZ.lA b hbA) leZ with z | z | ⟨z, _⟩
        · exact fin1 _ (Or.inl z)
        · exact fin1 _ (Or.inr z)
        · rcases around_keep gd hβ arZ b1 lineZ c3 hbA ck nc z with g | g
          · exact fin1 _ (Or.inr ⟨z.base, z.mv, g⟩)
          · exact fin2 _ z g
    · exfalso
      obtain ⟨k1, k2⟩ := lt_coll_eq (Z := pop R e) b0.wf el (hb.sl k hk).1 hc (by simpa using c3) (by simpa using c1)
      have : (pop R e).lin.sweepLine.reverse.find? (fun x => !(pop R e).lt e x) = some k := by
        have tw : (pop R e).lin.sweepLine = T1 ++ k :: T2 := hT
        rw [tw, List.reverse_append, List.reverse_cons, List.append_assoc, find?_append_false,
          List.singleton_append, List.find?_cons]
        · simp [c3]
        · intro x hx
          rw [(ar.ltB b0.wf (List.mem_reverse.mp hx)).1]; rfl
      unfold Reg.find at hf
      rw [this] at hf
      simp only at hf
      rw [if_pos ⟨k1.symm, k2.symm⟩] at hf
      cases hf

/-- Processing a left event. -/
theorem left_clean : ((pop R e).processLeft e).lin.ok = false ∨
    Doom c β ((pop R e).processLeft e) p (ids ++ [R.sid e]) ∨ Clean c β ((pop R e).processLeft e) p := by
  by_cases hN : ∀ x ∈ R.lin.sweepLine, ¬ CollE c R.lin x e
  · cases hf : (pop R e).find e with
    | some q =>
      obtain ⟨b0, _⟩ := base_pop hb low.mem hp
      exact Or.inr (Or.inl (left_find gd hβ b0 (R := pop R e) (left_isL (R := R) hb h low hp h0) hp
        (fun k => hb.slq e k low.mem) hf))
    | none => exact left_plain gd hβ hb h low hp h0 hN hf
  · push Not at hN
    obtain ⟨x, hx, k⟩ := hN
    rcases left_coll gd hβ hb h low hp h0 hx k.symm with z | z
    · exact Or.inl z
    · exact Or.inr (Or.inl z)

end

end Rene.BO
