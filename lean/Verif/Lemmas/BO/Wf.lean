import Verif.Model.BentleyOttmann
import Verif.Lemmas.Sweep.Order

/-! Well-formed states of the validity sweep and what a division does to them. -/

namespace Rene.BO
open Rene Spec Sweep

variable {c : Ctx}

/-- What a division does (nothing is pushed). -/
structure Div (S S' : Lin) (e : ℕ) (m : Point) : Prop where
  cnt : cnt S' = cnt S + 2
  start_old : ∀ x < Sweep.cnt S, S'.start x = S.start x
  start_new : S'.start (Sweep.cnt S) = m
  start_new' : S'.start (Sweep.cnt S + 1) = m
  opp_new : S'.opp (Sweep.cnt S) = S.opp e
  opp_new' : S'.opp (Sweep.cnt S + 1) = e
  opp_e : S'.opp e = Sweep.cnt S + 1
  opp_oe : S'.opp (S.opp e) = Sweep.cnt S
  opp_old : ∀ x < Sweep.cnt S, x ≠ e → x ≠ S.opp e → S'.opp x = S.opp x
  sid_old : ∀ x < Sweep.cnt S, S'.sid x = S.sid x
  sid_new : S'.sid (Sweep.cnt S) = S.sid e
  lenO : S'.opposites.length = S.opposites.length + 2
  lenS : S'.segmentsIds.length = S.segmentsIds.length + 1

theorem div_of {S : Lin} {e : ℕ} {m : Point} (hO : S.opposites.length = cnt S)
    (hS : S.segmentsIds.length * 2 = cnt S) (he : e < cnt S) (ho : S.opp e < cnt S) (hne : S.opp e ≠ e) :
    Div S (S.divide e m).1 e m :=
  have d := Sweep.divided (m := m) hO hS he ho hne
  ⟨d.cnt, d.start_old, d.start_new, d.start_new', d.opp_new, d.opp_new', d.opp_e, d.opp_oe, d.opp_old, d.sid_old,
    d.sid_new, d.lenO, d.lenS⟩

/-- Well-formed states. -/
structure WfB (c : Ctx) (S : Lin) : Prop where
  even : cnt S % 2 = 0
  lenO : S.opposites.length = cnt S
  lenS : S.segmentsIds.length * 2 = cnt S
  oppLt : ∀ e < cnt S, S.opp e < cnt S
  oppOpp : ∀ e < cnt S, S.opp (S.opp e) = e
  oppPar : ∀ e < cnt S, S.opp e % 2 ≠ e % 2
  memP : ∀ e < cnt S, S.start e ∈ c.P
  sidLt : ∀ e, IsL S e → S.sid e < c.N
  onL : ∀ e, IsL S e → c.On (S.sid e) (S.start e)
  onR : ∀ e, IsL S e → c.On (S.sid e) (S.end e)
  lr : ∀ e, IsL S e → lx c S e < rx c S e
  inA : ∀ e, IsL S e → c.X (c.A (S.sid e)) ≤ lx c S e
  inB : ∀ e, IsL S e → rx c S e ≤ c.X (c.B (S.sid e))
  big : 2 * c.N ≤ cnt S
  initA : ∀ i < c.N, S.start (2 * i) = c.A i
  initB : ∀ i < c.N, S.start (2 * i + 1) = c.B i
  sid0 : ∀ i < c.N, S.sid (2 * i) = i
  disj : ∀ e e', IsL S e → IsL S e' → e ≠ e' → S.sid e = S.sid e' → rx c S e ≤ lx c S e' ∨ rx c S e' ≤ lx c S e

theorem WfB.congr {S S' : Lin} (h : WfB c S) (h1 : S'.endpoints = S.endpoints) (h2 : S'.opposites = S.opposites)
    (h3 : S'.segmentsIds = S.segmentsIds) : WfB c S' := by
  obtain ⟨fc, ep, op, sg, q, sl, ok⟩ := S
  obtain ⟨fc', ep', op', sg', q', sl', ok'⟩ := S'
  simp only at h1 h2 h3
  subst h1 h2 h3
  exact ⟨h.even, h.lenO, h.lenS, h.oppLt, h.oppOpp, h.oppPar, h.memP, h.sidLt, h.onL, h.onR, h.lr, h.inA, h.inB,
    h.big, h.initA, h.initB, h.sid0, h.disj⟩

theorem WfB.opp_ne {S : Lin} (h : WfB c S) {e : ℕ} (he : e < cnt S) : S.opp e ≠ e := by
  intro g; exact h.oppPar e he (by rw [g])

theorem WfB.divided {S : Lin} (h : WfB c S) {e : ℕ} (he : e < cnt S) (m : Point) :
    Div S (S.divide e m).1 e m := div_of h.lenO h.lenS he (h.oppLt e he) (h.opp_ne he)

section
variable {S S' : Lin} {e : ℕ} {m : Point}

theorem Div.isL (d : Div S S' e m) {x : ℕ} (hx : IsL S x) : IsL S' x :=
  ⟨by rw [d.cnt]; have := hx.1; omega, hx.2⟩

theorem Div.isL_cases (d : Div S S' e m) {x : ℕ} (hev : Sweep.cnt S % 2 = 0) (hx : IsL S' x) :
    IsL S x ∨ x = Sweep.cnt S := by
  have := hx.1
  rw [d.cnt] at this
  have := hx.2
  by_cases h : x < Sweep.cnt S
  · exact Or.inl ⟨h, hx.2⟩
  · right; omega

theorem Div.isL_new (d : Div S S' e m) (hev : Sweep.cnt S % 2 = 0) : IsL S' (Sweep.cnt S) :=
  ⟨by rw [d.cnt]; omega, hev⟩

theorem Div.end_e (d : Div S S' e m) : S'.end e = m := by
  unfold Lin.end; rw [d.opp_e, d.start_new']

theorem Div.end_new (d : Div S S' e m) (ho : S.opp e < Sweep.cnt S) :
    S'.end (Sweep.cnt S) = S.end e := by
  unfold Lin.end; rw [d.opp_new, d.start_old _ ho]

theorem Div.end_old (d : Div S S' e m) {x : ℕ} (hx : x < Sweep.cnt S) (hxe : x ≠ e)
    (hxo : x ≠ S.opp e) (ho : S.opp x < Sweep.cnt S) : S'.end x = S.end x := by
  unfold Lin.end; rw [d.opp_old x hx hxe hxo, d.start_old _ ho]

theorem Div.lx (d : Div S S' e m) {x : ℕ} (hx : x < Sweep.cnt S) : Sweep.lx c S' x = Sweep.lx c S x := by
  unfold Sweep.lx; rw [d.start_old x hx]

theorem WfB.div_end (h : WfB c S) (he : IsL S e) (d : Div S S' e m)
    {x : ℕ} (hx : IsL S x) (hxe : x ≠ e) : S'.end x = S.end x := by
  refine d.end_old hx.1 hxe ?_ (h.oppLt x hx.1)
  rintro rfl
  exact h.oppPar e he.1 (hx.2.trans he.2.symm)

theorem WfB.toLeft (h : WfB c S) {e : ℕ} (he : e < cnt S) : IsL S (S.toLeft e) := by
  unfold Lin.toLeft
  by_cases hl : isLeft e = true
  · rw [if_pos hl]; exact ⟨he, isLeft_iff.mp hl⟩
  · rw [if_neg hl]
    refine ⟨h.oppLt e he, ?_⟩
    have := h.oppPar e he
    have : ¬ e % 2 = 0 := fun g => hl (isLeft_iff.mpr g)
    omega

theorem WfB.div (h : WfB c S) (he : IsL S e) (hm : m ∈ c.P)
    (hon : c.On (S.sid e) m) (h1 : Sweep.lx c S e < c.X m) (h2 : c.X m < rx c S e) (d : Div S S' e m) : WfB c S' := by
  have ho := h.oppLt e he.1
  have ev := h.even
  have en : S'.end (cnt S) = S.end e := d.end_new ho
  have ee : S'.end e = m := d.end_e
  have eo : ∀ {x}, IsL S x → x ≠ e → S'.end x = S.end x := fun hx hxe => h.div_end he d hx hxe
  have rn : rx c S' (cnt S) = rx c S e := by unfold rx; rw [en]
  have re : rx c S' e = c.X m := by unfold rx; rw [ee]
  have ro : ∀ {x}, IsL S x → x ≠ e → rx c S' x = rx c S x := fun hx hxe => by
    unfold rx; rw [eo hx hxe]
  have ln : Sweep.lx c S' (cnt S) = c.X m := by unfold Sweep.lx; rw [d.start_new]
  have lo : ∀ {x}, IsL S x → Sweep.lx c S' x = Sweep.lx c S x := fun hx => d.lx hx.1
  have so : ∀ {x}, IsL S x → S'.sid x = S.sid x := fun hx => d.sid_old _ hx.1
  have cs : ∀ {x}, IsL S' x → IsL S x ∨ x = cnt S := fun hx => d.isL_cases ev hx
  constructor
  · rw [d.cnt]; omega
  · rw [d.lenO, d.cnt, h.lenO]
  · rw [d.lenS, d.cnt]; have := h.lenS; omega
  · intro x hx
    rw [d.cnt] at *
    by_cases hx1 : x < cnt S
    · by_cases hxe : x = e
      · subst hxe; rw [d.opp_e]; omega
      · by_cases hxo : x = S.opp e
        · subst hxo; rw [d.opp_oe]; omega
        · rw [d.opp_old x hx1 hxe hxo]; have := h.oppLt x hx1; omega
    · have : x = cnt S ∨ x = cnt S + 1 := by omega
      rcases this with rfl | rfl
      · rw [d.opp_new]; omega
      · rw [d.opp_new']; have := he.1; omega
  · intro x hx
    rw [d.cnt] at hx
    by_cases hx1 : x < cnt S
    · by_cases hxe : x = e
      · subst hxe; rw [d.opp_e, d.opp_new']
      · by_cases hxo : x = S.opp e
        · subst hxo; rw [d.opp_oe, d.opp_new]
        · rw [d.opp_old x hx1 hxe hxo, d.opp_old _ (h.oppLt x hx1), h.oppOpp x hx1]
          · rintro rfl; exact hxo (h.oppOpp x hx1).symm
          · intro g
            apply hxe
            rw [← h.oppOpp x hx1, g, h.oppOpp e he.1]
    · have : x = cnt S ∨ x = cnt S + 1 := by omega
      rcases this with rfl | rfl
      · rw [d.opp_new, d.opp_oe]
      · rw [d.opp_new', d.opp_e]
  · intro x hx
    rw [d.cnt] at hx
    by_cases hx1 : x < cnt S
    · by_cases hxe : x = e
      · subst hxe; rw [d.opp_e]; have := he.2; omega
      · by_cases hxo : x = S.opp e
        · subst hxo; rw [d.opp_oe]; have := h.oppPar e he.1; have := he.2; omega
        · rw [d.opp_old x hx1 hxe hxo]; exact h.oppPar x hx1
    · have : x = cnt S ∨ x = cnt S + 1 := by omega
      rcases this with rfl | rfl
      · rw [d.opp_new]; have := h.oppPar e he.1; have := he.2; omega
      · rw [d.opp_new']; have := he.2; omega
  · intro x hx
    rw [d.cnt] at hx
    by_cases hx1 : x < cnt S
    · rw [d.start_old x hx1]; exact h.memP x hx1
    · have : x = cnt S ∨ x = cnt S + 1 := by omega
      rcases this with rfl | rfl
      · rw [d.start_new]; exact hm
      · rw [d.start_new']; exact hm
  · intro x hx
    rcases cs hx with g | rfl
    · rw [so g]; exact h.sidLt x g
    · rw [d.sid_new]; exact h.sidLt e he
  · intro x hx
    rcases cs hx with g | rfl
    · rw [so g, d.start_old x g.1]; exact h.onL x g
    · rw [d.sid_new, d.start_new]; exact hon
  · intro x hx
    rcases cs hx with g | rfl
    · rw [so g]
      by_cases hxe : x = e
      · subst hxe; rw [ee]; exact hon
      · rw [eo g hxe]; exact h.onR x g
    · rw [d.sid_new, en]; exact h.onR e he
  · intro x hx
    rcases cs hx with g | rfl
    · rw [lo g]
      by_cases hxe : x = e
      · subst hxe; rw [re]; exact h1
      · rw [ro g hxe]; exact h.lr x g
    · rw [ln, rn]; exact h2
  · intro x hx
    rcases cs hx with g | rfl
    · rw [lo g, so g]; exact h.inA x g
    · rw [ln, d.sid_new]; exact (h.inA e he).trans h1.le
  · intro x hx
    rcases cs hx with g | rfl
    · rw [so g]
      by_cases hxe : x = e
      · subst hxe; rw [re]; exact h2.le.trans (h.inB x g)
      · rw [ro g hxe]; exact h.inB x g
    · rw [rn, d.sid_new]; exact h.inB e he
  · rw [d.cnt]; have := h.big; omega
  · intro i hi
    have := h.big
    rw [d.start_old _ (by omega)]; exact h.initA i hi
  · intro i hi
    have := h.big
    rw [d.start_old _ (by omega)]; exact h.initB i hi
  · intro i hi
    have := h.big
    rw [d.sid_old _ (by omega)]; exact h.sid0 i hi
  · intro x y hx hy hxy hs
    have aux : ∀ {x}, IsL S x → x ≠ e → S.sid x = S.sid e → rx c S x ≤ Sweep.lx c S e ∨ rx c S e ≤ Sweep.lx c S x :=
      fun {x} hx hxe => h.disj x e hx he hxe
    rcases cs hx with g | rfl
    · rcases cs hy with g' | rfl
      · rw [so g, so g'] at hs
        rw [lo g, lo g']
        have := h.disj x y g g' hxy hs
        by_cases hxe : x = e
        · subst hxe
          rw [re, ro g' (fun h => hxy h.symm)]
          rcases this with k | k
          · left; linarith
          · right; exact k
        · rw [ro g hxe]
          by_cases hye : y = e
          · subst hye; rw [re]
            rcases this with k | k
            · left; exact k
            · right; linarith
          · rw [ro g' hye]; exact this
      · rw [so g, d.sid_new] at hs
        rw [lo g, ln, rn]
        by_cases hxe : x = e
        · subst hxe; rw [re]; left; exact le_refl _
        · rw [ro g hxe]
          rcases aux g hxe hs with k | k
          · left; linarith
          · right; exact k
    · rcases cs hy with g' | rfl
      · rw [so g', d.sid_new] at hs
        rw [lo g', ln, rn]
        by_cases hye : y = e
        · subst hye; rw [re]; right; exact le_refl _
        · rw [ro g' hye]
          rcases aux g' hye hs.symm with k | k
          · right; linarith
          · left; exact k
      · exact absurd rfl hxy

end

/-! ### Bad contacts -/

/-- Two different segments have a forbidden contact at the abscissa `t`. -/
def Bad (c : Ctx) (i j : ℕ) (t : ℚ) : Prop :=
  i < c.N ∧ j < c.N ∧ i ≠ j ∧ (c.X (c.A i) ≤ t ∧ t ≤ c.X (c.B i)) ∧ (c.X (c.A j) ≤ t ∧ t ≤ c.X (c.B j)) ∧
  c.f i t = c.f j t ∧ ((c.X (c.A i) < t ∧ t < c.X (c.B i)) ∨ (c.X (c.A j) < t ∧ t < c.X (c.B j)) ∨
    (c.Coll i j ∧ t = c.X (c.A i) ∧ t = c.X (c.A j)))

theorem Bad.symm {i j : ℕ} {t : ℚ} (h : Bad c i j t) : Bad c j i t := by
  obtain ⟨h1, h2, h3, h4, h5, h6, h7⟩ := h
  refine ⟨h2, h1, h3.symm, h5, h4, h6.symm, ?_⟩
  rcases h7 with k | k | ⟨k1, k2, k3⟩
  · exact Or.inr (Or.inl k)
  · exact Or.inl k
  · exact Or.inr (Or.inr ⟨k1.symm, k3, k2⟩)

section
variable {S : Lin} {a b : ℕ}

theorem bad_of_int (w : WfB c S) (ha : IsL S a) (hb : IsL S b) (hs : S.sid a ≠ S.sid b) {t : ℚ}
    (hf : c.f (S.sid a) t = c.f (S.sid b) t) (hi' : Int c S a t) (h1 : lx c S b ≤ t) (h2 : t ≤ rx c S b) :
    Bad c (S.sid a) (S.sid b) t := by
  have := w.inA a ha; have := w.inB a ha; have := w.inA b hb; have := w.inB b hb
  obtain ⟨i1, i2⟩ := hi'
  exact ⟨w.sidLt a ha, w.sidLt b hb, hs, ⟨by linarith, by linarith⟩, ⟨by linarith, by linarith⟩, hf,
    Or.inl ⟨by linarith, by linarith⟩⟩

theorem bad_of_coll (w : WfB c S) (ha : IsL S a) (hb : IsL S b) (hs : S.sid a ≠ S.sid b)
    (hc : c.Coll (S.sid a) (S.sid b)) (h1 : lx c S a ≤ lx c S b) (h2 : lx c S b < rx c S a) :
    Bad c (S.sid a) (S.sid b) (lx c S b) := by
  have := w.inA a ha; have := w.inB a ha; have := w.inA b hb; have := w.inB b hb; have := w.lr b hb
  refine ⟨w.sidLt a ha, w.sidLt b hb, hs, ⟨by linarith, by linarith⟩, ⟨by linarith, by linarith⟩, hc.f_eq _, ?_⟩
  by_cases k : c.X (c.A (S.sid a)) < lx c S b
  · left; exact ⟨k, by linarith⟩
  · by_cases k' : c.X (c.A (S.sid b)) < lx c S b
    · right; left; exact ⟨k', by linarith⟩
    · right; right; exact ⟨hc, by linarith, by linarith⟩

/-- Equal pieces are one piece or a bad contact. -/
theorem bad_of_equal (w : WfB c S) (ha : IsL S a) (hb : IsL S b) (hab : a ≠ b) (h1 : S.start a = S.start b)
    (h2 : S.end a = S.end b) : S.sid a ≠ S.sid b ∧ Bad c (S.sid a) (S.sid b) (lx c S b) := by
  have e1 : lx c S a = lx c S b := by unfold lx; rw [h1]
  have e2 : rx c S a = rx c S b := by unfold rx; rw [h2]
  have la := w.lr a ha
  have hs : S.sid a ≠ S.sid b := by
    intro hs
    rcases w.disj a b ha hb hab hs with k | k <;> linarith
  have hc : c.Coll (S.sid a) (S.sid b) := by
    have k1 := w.onL a ha; have k2 := w.onR a ha; have k3 := w.onL b hb; have k4 := w.onR b hb
    unfold Ctx.On at k1 k2 k3 k4
    refine Ctx.coll_of_two la.ne ?_ ?_
    · unfold lx; rw [← k1, h1, ← k3]
    · unfold rx; rw [← k2, h2, ← k4]
  exact ⟨hs, bad_of_coll w ha hb hs hc e1.le (by linarith)⟩

end
end Rene.BO
