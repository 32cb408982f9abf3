import Verif.Lemmas.Sweep.Right
import Mathlib.Data.List.TakeWhile

/-! Processing of a left event. -/

namespace Rene.Sweep
open Rene Spec

variable {c : Ctx} {S : Lin} {p : Point}

/-- Pieces through `p` which continue to the right: if one of them comes from the left, then all of them do,
and they are on the same line. -/
theorem Inv.through (h : Inv c S p) (hr : ∀ y ∈ S.sweepLine, c.X p < rx c S y) {x z : ℕ}
    (hx : x ∈ S.sweepLine) (hz : z ∈ S.sweepLine) (hxp : c.f (S.sid x) (c.X p) = p.y)
    (hzp : c.f (S.sid z) (c.X p) = p.y) (hxl : lx c S x < c.X p) : CollE c S x z := by
  by_contra hc
  obtain ⟨a, ha, b, hb, k1, k2, k3, k4, k5⟩ := h.walk (t := c.X p) (w := p.y) (fun e he => h.lx_le he)
    (fun e he => h.le_rx he) (fun z => CollE c S x z ∧ lx c S z < c.X p) hx hz hxp hzp
    ⟨Ctx.Coll.refl _, hxl⟩ (fun z => hc z.1)
  have ia : Int c S a (c.X p) := ⟨k3.2, hr a ha⟩
  by_cases hab : CollE c S a b
  · have hxb : CollE c S x b := Ctx.Coll.trans k3.1 hab
    have hlb : lx c S b = c.X p := by
      by_contra hne
      exact k4 ⟨hxb, lt_of_le_of_ne (h.lx_le hb) hne⟩
    have := hr a ha
    have := hr b hb
    have := k3.2
    rcases k5.1 hab with (z | z) | ⟨z, _⟩ <;> linarith
  · exact (k5.2 hab (c.X p) (k1.trans k2.symm) (h.lx_le ha) (h.le_rx ha) (h.lx_le hb) (h.le_rx hb)).1 ia

section
variable {e : ℕ}

theorem Inv.leftBasic (h : Inv c S p) (l : Least c S e) (hp : lx c S e = c.X p)
    (hl : isLeft e = true) : IsL S e ∧ (∀ y ∈ S.sweepLine, c.X p < rx c S y) ∧ e ∉ S.sweepLine ∧
    (∀ y ∈ S.sweepLine, CollE c S y e → ¬ SameOp c S y e) := by
  have he : IsL S e := ⟨h.qlt e l.mem, isLeft_iff.mp hl⟩
  have hr : ∀ y ∈ S.sweepLine, c.X p < rx c S y := by
    intro y hy
    refine lt_of_le_of_ne (h.le_rx hy) fun z => ?_
    obtain ⟨k1, k2, k3⟩ := (h.tmem y).mp hy
    have := l.right hl _ k3 (by rw [hp, z]; rfl)
    rw [isLeft_iff] at this
    have := h.wf.oppPar y k1.1
    have := k1.2
    omega
  refine ⟨he, hr, fun z => ((h.tmem e).mp z).2.1 l.mem, fun y hy hc so => ?_⟩
  have hne : y ≠ e := by
    rintro rfl; exact ((h.tmem y).mp hy).2.1 l.mem
  have := hr y hy
  have := h.lx_le hy
  have := h.wf.lr e he
  rcases h.wf.noOv y e (h.isL hy) he hne so hc with k | k <;> linarith

/-- The new event splits the sweep line. -/
theorem Inv.prefix (g : c.Good) (h : Inv c S p) (l : Least c S e) (hp : lx c S e = c.X p)
    (hl : isLeft e = true) : S.sweepLine.Pairwise (fun x y => SLt c S y e → SLt c S x e) := by
  obtain ⟨he, hr, _, _⟩ := h.leftBasic l hp hl
  have hs : S.start e = p := (g.eq_iff (h.wf.memP e he.1) h.pP).mpr hp
  have hon : c.f (S.sid e) (c.X p) = p.y := by
    have := h.wf.onL e he
    rw [hs] at this
    exact this.symm
  have hv := h.values (t := c.X p) (fun e he => h.lx_le he) (fun e he => h.le_rx he)
  refine List.Pairwise.imp_of_mem ?_ (h.sorted.and hv)
  intro x y hx hy hxy hye
  obtain ⟨hxy, hval⟩ := hxy
  have hmx : max (lx c S x) (lx c S e) = c.X p := by rw [hp]; exact max_eq_right (h.lx_le hx)
  have hmy : max (lx c S y) (lx c S e) = c.X p := by rw [hp]; exact max_eq_right (h.lx_le hy)
  unfold SLt at hye ⊢
  rw [hmy] at hye
  rw [hmx]
  have hyp : c.f (S.sid y) (c.X p) ≤ p.y := by
    rcases hye with (k | ⟨k, _⟩) | ⟨k, _⟩
    · linarith
    · linarith
    · rw [k.f_eq, hon]
  rcases lt_or_eq_of_le (hval.trans hyp) with k | hxp
  · left; left; rw [hon]; exact k
  · have hyp' : c.f (S.sid y) (c.X p) = p.y := le_antisymm hyp (hxp ▸ hval)
    have hke : c.K (S.sid y) < c.K (S.sid e) ∨ (CollE c S y e ∧ S.sid y < c.F ∧ ¬ S.sid e < c.F) := by
      rcases hye with (k | ⟨_, k⟩) | k
      · linarith
      · exact Or.inl k
      · exact Or.inr k
    have fin : c.K (S.sid x) < c.K (S.sid e) → (AboveR c (S.sid x) (S.sid e) (c.X p) ∨
        CollE c S x e ∧ S.sid x < c.F ∧ ¬S.sid e < c.F) := fun k => Or.inl (Or.inr ⟨by rw [hxp, hon], k⟩)
    have hcase : c.K (S.sid x) < c.K (S.sid y) ∨ (CollE c S x y ∧ S.sid x < c.F ∧ ¬ S.sid y < c.F) := by
      by_cases hlx : lx c S x < c.X p
      · have := h.through hr hx hy hxp hyp' hlx
        rcases hxy with k | k
        · exact absurd this (aboveR_not_coll k)
        · exact Or.inr k
      · by_cases hly : lx c S y < c.X p
        · have := (h.through hr hy hx hyp' hxp hly).symm
          rcases hxy with k | k
          · exact absurd this (aboveR_not_coll k)
          · exact Or.inr k
        · have e1 : lx c S x = c.X p := le_antisymm (h.lx_le hx) (not_lt.mp hlx)
          have e2 : lx c S y = c.X p := le_antisymm (h.lx_le hy) (not_lt.mp hly)
          rcases hxy with k | k
          · rw [e1, e2, max_self] at k
            rcases k with k | ⟨_, k⟩
            · linarith
            · exact Or.inl k
          · exact Or.inr k
    rcases hcase with k | ⟨k, k', k''⟩
    · rcases hke with z | ⟨z, _⟩
      · exact fin (k.trans z)
      · apply fin; rw [← z.1]; exact k
    · rcases hke with z | ⟨z, z', _⟩
      · apply fin; rw [k.1]; exact z
      · exact absurd z' k''

theorem takeWhile_prop {P : ℕ → Bool} {l : List ℕ} : ∀ x ∈ l.takeWhile P, P x = true := by
  intro x hx
  exact List.mem_takeWhile_imp hx

theorem dropWhile_prop {P : ℕ → Bool} : ∀ {l : List ℕ}, l.Pairwise (fun x y => P y = true → P x = true) →
    ∀ x ∈ l.dropWhile P, P x = false := by
  intro l
  induction l with
  | nil => intro _ x hx; simp at hx
  | cons a l ih =>
    intro h x hx
    rw [List.pairwise_cons] at h
    by_cases ha : P a = true
    · rw [List.dropWhile_cons_of_pos ha] at hx
      exact ih h.2 x hx
    · rw [List.dropWhile_cons_of_neg ha] at hx
      rcases List.mem_cons.mp hx with rfl | hx
      · exact Bool.eq_false_iff.mpr ha
      · exact Bool.eq_false_iff.mpr fun z => ha (h.1 x hx z)

/-- The state after the insertion of the popped left event. -/
theorem Inv.added (g : c.Good) (h : Inv c S p) (l : Least c S e) (hp : lx c S e = c.X p)
    (hl : isLeft e = true) (k : Bool) : S.find e = none ∧ ∃ A B, S.sweepLine = A ++ B ∧
    S.add e = { S with sweepLine := A ++ e :: B } ∧
    Inv0 c { S with queue := S.queue.erase e, sweepLine := A ++ e :: B, ok := k } p := by
  obtain ⟨he, hr, heT, hop⟩ := h.leftBasic l hp hl
  have key : ∀ x ∈ S.sweepLine, (S.sweepLt x e = true ↔ SLt c S x e) ∧ (S.sweepLt e x = true ↔ SLt c S e x) := by
    intro x hx
    have h1 : lx c S x ≤ rx c S e := (h.lx_le hx).trans (hp ▸ (h.wf.lr e he).le)
    have h2 : lx c S e ≤ rx c S x := by rw [hp]; exact h.le_rx hx
    refine ⟨sweepLt_iff h.wf (h.isL hx) he h1 h2 (hop x hx), sweepLt_iff h.wf he (h.isL hx) h2 h1 ?_⟩
    intro hc so
    exact hop x hx hc.symm so.symm
  have tot : ∀ x ∈ S.sweepLine, SLt c S x e ∨ SLt c S e x := fun x hx => SLt.total (hop x hx)
  have hpre : S.sweepLine.Pairwise (fun x y => S.sweepLt y e = true → S.sweepLt x e = true) := by
    refine List.Pairwise.imp_of_mem ?_ (h.prefix g l hp hl)
    intro x y hx hy hxy
    rw [(key x hx).1, (key y hy).1]
    exact hxy
  refine ⟨?_, S.sweepLine.takeWhile (fun x => S.sweepLt x e), S.sweepLine.dropWhile (fun x => S.sweepLt x e),
    (List.takeWhile_append_dropWhile).symm, rfl, ?_⟩
  · unfold Lin.find
    rw [List.find?_eq_none]
    intro x hx
    rcases tot x hx with z | z
    · simp [(key x hx).1.mpr z]
    · simp [(key x hx).2.mpr z]
  · have hA : ∀ x ∈ S.sweepLine.takeWhile (fun x => S.sweepLt x e), SLt c S x e := fun x hx =>
      (key x ((List.takeWhile_sublist _).mem hx)).1.mp (takeWhile_prop (P := fun x => S.sweepLt x e) x hx)
    have hB : ∀ x ∈ S.sweepLine.dropWhile (fun x => S.sweepLt x e), SLt c S e x := by
      intro x hx
      have hxT := (List.dropWhile_sublist _).mem hx
      have := dropWhile_prop (P := fun x => S.sweepLt x e) hpre x hx
      rcases tot x hxT with z | z
      · have := (key x hxT).1.mpr z; simp_all
      · exact z
    have hT : S.sweepLine = S.sweepLine.takeWhile (fun x => S.sweepLt x e) ++
      S.sweepLine.dropWhile (fun x => S.sweepLt x e) := (List.takeWhile_append_dropWhile).symm
    generalize S.sweepLine.takeWhile (fun x => S.sweepLt x e) = A at *
    generalize S.sweepLine.dropWhile (fun x => S.sweepLt x e) = B at *
    have mT : ∀ x, x ∈ A ++ e :: B ↔ x = e ∨ x ∈ S.sweepLine := by
      intro x; rw [hT]; simp only [List.mem_append, List.mem_cons]; tauto
    have mq : ∀ x, x ∈ S.queue.erase e ↔ x ≠ e ∧ x ∈ S.queue := fun x => h.qnd.mem_erase_iff
    have oe : S.opp e ≠ e := h.wf.opp_ne he.1
    refine ⟨h.wf.set _ _ _, h.pP, fun x hx => h.qlt x ((mq x).mp hx).2, h.qnd.erase e,
      fun x hx => h.qge x ((mq x).mp hx).2, ?_, ?_, ?_, h.noInt, ?_, Or.inl ⟨e, he, hp⟩, ?_⟩
    · intro x hx hxq
      by_cases hxe : x = e
      · subst hxe; exact hp.le
      · exact h.ple x hx (fun z => hxq ((mq x).mpr ⟨hxe, z⟩))
    · intro x
      show x ∈ A ++ e :: B ↔ IsL S x ∧ x ∉ S.queue.erase e ∧ S.opp x ∈ S.queue.erase e
      rw [mT, mq, mq]
      constructor
      · rintro (rfl | hx)
        · refine ⟨he, fun z => z.1 rfl, oe, ?_⟩
          by_contra z
          have := h.ple _ (h.wf.oppLt x he.1) z
          have k2 := h.wf.lr x he
          have : lx c S (S.opp x) = rx c S x := rfl
          linarith
        · obtain ⟨k1, k2, k3⟩ := (h.tmem x).mp hx
          refine ⟨k1, fun z => k2 z.2, ?_, k3⟩
          intro z
          have := h.wf.oppPar x k1.1
          rw [z, he.2, k1.2] at this
          exact this rfl
      · rintro ⟨k1, k2, k3⟩
        by_cases hxe : x = e
        · exact Or.inl hxe
        · exact Or.inr ((h.tmem x).mpr ⟨k1, fun z => k2 ⟨hxe, z⟩, k3.2⟩)
    · have := h.tnd
      show (A ++ e :: B).Nodup
      rw [List.nodup_middle, List.nodup_cons]
      rw [hT] at this heT
      exact ⟨heT, this⟩
    · have := h.sorted
      rw [hT, List.pairwise_append] at this
      show List.Pairwise (SLt c S) (A ++ e :: B)
      rw [List.pairwise_append, List.pairwise_cons]
      refine ⟨this.1, ⟨hB, this.2.1⟩, fun x hx y hy => ?_⟩
      rcases List.mem_cons.mp hy with rfl | hy
      · exact hA x hx
      · exact this.2.2 x hx y hy
    · intro x hx hxq hxr y hy hyp hon
      have hy' : y ∈ S.sweepLine := by
        rcases (mT y).mp hy with rfl | z
        · change lx c S y < c.X p at hyp; linarith
        · exact z
      refine h.mono x hx (fun z => hxq ((mq _).mpr ⟨fun z' => ?_, z⟩)) hxr y hy' hyp hon
      have := h.wf.oppPar x hx.1
      change S.opp x = e at z'
      rw [z', he.2, hx.2] at this
      exact this rfl

theorem Inv.left (g : c.Good) (h : Inv c S p) (l : Least c S e) (hp : lx c S e = c.X p)
    (hl : isLeft e = true) : Inv c (S.process e) p ∧ Step c S (S.process e) e := by
  obtain ⟨he, hr, heT, hop⟩ := h.leftBasic l hp hl
  have hqok : S.queueOk = true := h.wf.queueOk h.qlt
  obtain ⟨hf, A, B, hT, hadd, h1⟩ := h.added g l hp hl S.ok
  have hch := h.chain
  rw [hT, List.isChain_append] at hch
  let S1 : Lin := { S with queue := S.queue.erase e, sweepLine := A ++ e :: B, ok := S.ok }
  have hT1 : S1.sweepLine = A ++ e :: B := rfl
  have hsp := h1.split (A := A) (B := B) (o := e) rfl
  have e1 : S.process e =
      (match A.getLast? with
      | some b => (match B.head? with
        | some a => S1.detectIntersection e a
        | none => S1).detectIntersection b e
      | none => match B.head? with
        | some a => S1.detectIntersection e a
        | none => S1) := by
    unfold Lin.process
    rw [if_pos hl]
    unfold Lin.processLeft
    simp only [hqok, Bool.and_true]
    have hf' : Lin.find { S with queue := S.queue.erase e } e = none := hf
    have ha' : Lin.add { S with queue := S.queue.erase e } e = S1 := by
      show Lin.mk S.firstCount S.endpoints S.opposites S.segmentsIds (S.queue.erase e) (S.add e).sweepLine S.ok = S1
      rw [hadd]
    rw [hf']
    simp only
    rw [ha']
    have fa : S1.above e = B.head? := hsp.above rfl
    have fb : S1.below e = A.getLast? := hsp.below rfl
    rw [fa, fb]
    generalize A.getLast? = u
    generalize B.head? = v
    cases u <;> cases v <;> rfl
  have ndT := h1.tnd
  change (A ++ e :: B).Nodup at ndT
  rw [List.nodup_append] at ndT
  have eA : e ∉ A := fun z => ndT.2.2 e z e (by simp) rfl
  have eB : e ∉ B := (List.nodup_cons.mp ndT.2.1).1
  have hL1 : ∀ x ∈ A ++ e :: B, IsL S1 x := fun x hx => h1.isL hx
  have hA : A.IsChain (Checked c S1) := hch.1
  have hB : B.IsChain (Checked c S1) := hch.2.1
  -- the test with the upper neighbour
  obtain ⟨S2, hS2, i2, x2, c2⟩ : ∃ S2, S2 = (match B.head? with
      | some a => S1.detectIntersection e a
      | none => S1) ∧ Inv0 c S2 p ∧ Ext c S1 S2 ∧ (e :: B).IsChain (Checked c S2) := by
    refine ⟨_, rfl, ?_⟩
    cases hb : B.head? with
    | none =>
      refine ⟨h1, Ext.refl _, ?_⟩
      rw [List.head?_eq_none_iff] at hb
      subst hb
      exact List.isChain_singleton e
    | some a =>
      have ma : a ∈ B := List.mem_of_mem_head? hb
      obtain ⟨k1, k2, k3, _⟩ := detectIntersection_spec g h1 (a := e) (b := a) (by show e ∈ A ++ e :: B; simp)
        (by show a ∈ A ++ e :: B; simp [ma]) (by rintro rfl; exact eB ma)
      refine ⟨k1, k2, ?_⟩
      rw [List.isChain_cons]
      refine ⟨fun y hy => ?_, k2.chain (fun x hx => hL1 x (by simp [hx])) hB⟩
      rw [hb] at hy
      cases hy
      exact k3
  rw [← hS2] at e1
  have hT2 : S2.sweepLine = A ++ e :: B := x2.sweepLine
  obtain ⟨S3, hS3, i3, x3⟩ : ∃ S3, S3 = (match A.getLast? with
      | some b => S2.detectIntersection b e
      | none => S2) ∧ Inv c S3 p ∧ Ext c S2 S3 := by
    refine ⟨_, rfl, ?_⟩
    have cA : A.IsChain (Checked c S2) := x2.chain (fun x hx => hL1 x (by simp [hx])) hA
    cases ha : A.getLast? with
    | none =>
      refine ⟨⟨i2, ?_⟩, Ext.refl _⟩
      rw [List.getLast?_eq_none_iff] at ha
      subst ha
      rw [hT2]
      exact c2
    | some b =>
      have mb : b ∈ A := List.mem_of_getLast? ha
      obtain ⟨k1, k2, k3, _⟩ := detectIntersection_spec g i2 (a := b) (b := e) (by rw [hT2]; simp [mb])
        (by rw [hT2]; simp) (by rintro rfl; exact eA mb)
      refine ⟨⟨k1, ?_⟩, k2⟩
      have hL2 : ∀ x ∈ A ++ e :: B, IsL S2 x := fun x hx => x2.isL (hL1 x hx)
      rw [k2.sweepLine, hT2, List.isChain_append]
      refine ⟨k2.chain (fun x hx => hL2 x (by simp [hx])) cA,
        k2.chain (fun x hx => hL2 x (by simp only [List.mem_append]; exact Or.inr hx)) c2, ?_⟩
      intro x hx y hy
      rw [ha] at hx
      cases hx
      cases hy
      exact k3
  have e2 : S.process e = S3 := by rw [hS3, e1]
  rw [e2]
  refine ⟨i3, step_of_ext (x2.trans x3) h.qnd he.1 l.mem rfl rfl rfl rfl (fun x hx => ?_) rfl⟩
  change x ∈ A ++ e :: B at hx
  rw [hT]
  simp only [List.mem_append, List.mem_cons] at *
  tauto

end
end Rene.Sweep
