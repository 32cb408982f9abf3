import Verif.Lemmas.Sweep.Annot

/-! Annotation of left events: the invariant of the flags. -/

namespace Rene.Sweep
open Rene Spec

variable {c : Ctx}

/-- The state after the insertion of a popped left event. -/
def insertedAt (S : Lin) (e : ℕ) (A B : List ℕ) : Lin :=
  { S with queue := S.queue.erase e, sweepLine := A ++ e :: B, ok := S.ok }

/-- The same line and the same start. -/
def Ret (c : Ctx) (S : Lin) (x y : ℕ) : Prop := CollE c S x y ∧ lx c S x = lx c S y

theorem Ret.symm {S : Lin} {x y : ℕ} (h : Ret c S x y) : Ret c S y x := ⟨h.1.symm, h.2.symm⟩

theorem Ext.ret {S S' : Lin} (h : Ext c S S') {x y : ℕ} (hx : x < Sweep.cnt S) (hy : y < Sweep.cnt S) :
    Ret c S' x y ↔ Ret c S x y := by
  unfold Ret CollE
  rw [h.sid x hx, h.sid y hy, h.lx hx, h.lx hy]

/-- Overlapping neighbours with a common start end together after the test. -/
theorem detect_end (g : c.Good) {S : Lin} {p : Point} (h : Inv0 c S p) {a b : ℕ} (ha : a ∈ S.sweepLine)
    (hb : b ∈ S.sweepLine) (hab : a ≠ b) (hr : Ret c S a b) :
    rx c (S.detectIntersection a b) a = rx c (S.detectIntersection a b) b := by
  have la := h.isL ha
  have lb := h.isL hb
  have mla := h.wf.memP a la.1
  have mlb := h.wf.memP b lb.1
  have mra : S.end a ∈ c.P := h.wf.memP _ (h.wf.oppLt a la.1)
  have mrb : S.end b ∈ c.P := h.wf.memP _ (h.wf.oppLt b lb.1)
  have lra : c.X (S.start a) < c.X (S.end a) := h.wf.lr a la
  have lrb : c.X (S.start b) < c.X (S.end b) := h.wf.lr b lb
  have hst : S.start b = S.start a := (g.eq_iff mlb mla).mpr hr.2.symm
  have olb := h.wf.onL b lb
  have orb := h.wf.onR b lb
  have ora := h.wf.onR a la
  have o1 : orient (S.end a) (S.start a) (S.start b) = .collinear :=
    (Ctx.orient_on_rev (h.wf.onL a la) ora lra).2.2.mpr (olb.coll hr.1.symm)
  have o2 : orient (S.end a) (S.start a) (S.end b) = .collinear :=
    (Ctx.orient_on_rev (h.wf.onL a la) ora lra).2.2.mpr (orb.coll hr.1.symm)
  have e : rx c (S.detect a b) a = rx c (S.detect a b) b := by
    unfold Lin.detect
    simp only
    rw [if_pos (o1.trans o2.symm), if_pos o1, if_pos hst]
    by_cases q2 : S.end b = S.end a
    · rw [if_neg (by simpa using q2)]
      unfold rx; rw [q2]
    · rw [if_pos q2]
      by_cases q3 : (S.end b).ltB (S.end a) = true
      · rw [if_pos q3]
        rw [Point.ltB_iff, g.lt_iff mrb mra] at q3
        obtain ⟨_, _, re, ro, _⟩ := div_spec h ha mrb (orb.coll hr.1.symm)
          (by unfold lx; rw [← hst]; exact lrb) q3
        rw [re, ro b hb hab.symm]; rfl
      · rw [if_neg q3]
        rw [Point.ltB_iff, g.lt_iff mrb mra, not_lt] at q3
        have q3 := lt_of_le_of_ne q3 (fun e => q2 ((g.eq_iff mrb mra).mpr e.symm))
        obtain ⟨_, _, re, ro, _⟩ := div_spec h hb mra (ora.coll hr.1)
          (by unfold lx; rw [hst]; exact lra) q3
        rw [re, ro a ha hab]; rfl
  exact e

section
variable {S : Lin} {p : Point} {e : ℕ}

/-- The parts of the processing of a left event. -/
structure LeftParts (c : Ctx) (S : Lin) (p : Point) (e : ℕ) (A B : List ℕ) (S2 S3 : Lin) : Prop where
  sweep : S.sweepLine = A ++ B
  find : S.find e = none
  add : S.add e = { S with sweepLine := A ++ e :: B }
  inv1 : Inv0 c (insertedAt S e A B) p
  inv2 : Inv0 c S2 p
  inv3 : Inv c S3 p
  ext1 : Ext c (insertedAt S e A B) S2
  ext2 : Ext c S2 S3
  s2 : S2 = match B.head? with
    | some a => (insertedAt S e A B).detectIntersection e a
    | none => insertedAt S e A B
  s3 : S3 = match A.getLast? with
    | some b => S2.detectIntersection b e
    | none => S2
  proc : S.process e = S3
  endA : ∀ a, B.head? = some a → Ret c S e a → rx c S2 e = rx c S2 a
  endB : ∀ b, A.getLast? = some b → Ret c S b e → rx c S3 b = rx c S3 e

theorem Inv.leftParts (g : c.Good) (h : Inv c S p) (l : Least c S e) (hp : lx c S e = c.X p)
    (hl : isLeft e = true) : ∃ A B S2 S3, LeftParts c S p e A B S2 S3 := by
  obtain ⟨he, hr, heT, hop⟩ := h.leftBasic l hp hl
  have hqok : S.queueOk = true := h.wf.queueOk h.qlt
  obtain ⟨hf, A, B, hT, hadd, h1⟩ := h.added g l hp hl S.ok
  have hch := h.chain
  rw [hT, List.isChain_append] at hch
  have h1 : Inv0 c (insertedAt S e A B) p := h1
  generalize hS1 : insertedAt S e A B = S1 at h1
  have hT1 : S1.sweepLine = A ++ e :: B := by rw [← hS1]; rfl
  have hsp := h1.split (A := A) (B := B) (o := e) hT1
  have e1 : S.process e =
      (match A.getLast? with
      | some b => (match B.head? with
        | some a => S1.detectIntersection e a
        | none => S1).detectIntersection b e
      | none => match B.head? with
        | some a => S1.detectIntersection e a
        | none => S1) := by
    unfold Lin.process
    rw [if_pos hl]
    unfold Lin.processLeft
    simp only [hqok, Bool.and_true]
    have hf' : Lin.find { S with queue := S.queue.erase e } e = none := hf
    have ha' : Lin.add { S with queue := S.queue.erase e } e = S1 := by
      rw [← hS1]
      show Lin.mk S.firstCount S.endpoints S.opposites S.segmentsIds (S.queue.erase e) (S.add e).sweepLine S.ok = _
      rw [hadd]; rfl
    rw [hf']
    simp only
    rw [ha']
    have fa : S1.above e = B.head? := hsp.above hT1
    have fb : S1.below e = A.getLast? := hsp.below hT1
    rw [fa, fb]
    generalize A.getLast? = u
    generalize B.head? = v
    cases u <;> cases v <;> rfl
  have ndT := h1.tnd
  rw [hT1, List.nodup_append] at ndT
  have eA : e ∉ A := fun z => ndT.2.2 e z e (by simp) rfl
  have eB : e ∉ B := (List.nodup_cons.mp ndT.2.1).1
  have hL1 : ∀ x ∈ A ++ e :: B, IsL S1 x := fun x hx => h1.isL (by rw [hT1]; exact hx)
  have hA : A.IsChain (Checked c S1) := by rw [← hS1]; exact hch.1
  have hB : B.IsChain (Checked c S1) := by rw [← hS1]; exact hch.2.1
  have ret1 : ∀ x y, Ret c S1 x y ↔ Ret c S x y := by intro x y; rw [← hS1]; exact Iff.rfl
  obtain ⟨S2, hS2, i2, x2, c2, r2⟩ : ∃ S2, S2 = (match B.head? with
      | some a => S1.detectIntersection e a
      | none => S1) ∧ Inv0 c S2 p ∧ Ext c S1 S2 ∧ (e :: B).IsChain (Checked c S2) ∧
      (∀ a, B.head? = some a → Ret c S e a → rx c S2 e = rx c S2 a) := by
    refine ⟨_, rfl, ?_⟩
    cases hb : B.head? with
    | none =>
      refine ⟨h1, Ext.refl _, ?_, by simp⟩
      rw [List.head?_eq_none_iff] at hb
      subst hb
      exact List.isChain_singleton e
    | some a =>
      have ma : a ∈ B := List.mem_of_mem_head? hb
      have m1 : e ∈ S1.sweepLine := by rw [hT1]; simp
      have m2 : a ∈ S1.sweepLine := by rw [hT1]; simp [ma]
      have m3 : e ≠ a := by rintro rfl; exact eB ma
      obtain ⟨k1, k2, k3, _⟩ := detectIntersection_spec g h1 (a := e) (b := a) m1 m2 m3
      refine ⟨k1, k2, ?_, fun a' ha' hr' => ?_⟩
      · rw [List.isChain_cons]
        refine ⟨fun y hy => ?_, k2.chain (fun x hx => hL1 x (by simp [hx])) hB⟩
        rw [hb] at hy
        cases hy
        exact k3
      · cases ha'
        exact detect_end g h1 m1 m2 m3 ((ret1 _ _).mpr hr')
  rw [← hS2] at e1
  have hT2 : S2.sweepLine = A ++ e :: B := x2.sweepLine.trans hT1
  obtain ⟨S3, hS3, i3, x3, r3⟩ : ∃ S3, S3 = (match A.getLast? with
      | some b => S2.detectIntersection b e
      | none => S2) ∧ Inv c S3 p ∧ Ext c S2 S3 ∧
      (∀ b, A.getLast? = some b → Ret c S b e → rx c S3 b = rx c S3 e) := by
    refine ⟨_, rfl, ?_⟩
    have cA : A.IsChain (Checked c S2) := x2.chain (fun x hx => hL1 x (by simp [hx])) hA
    cases ha : A.getLast? with
    | none =>
      refine ⟨⟨i2, ?_⟩, Ext.refl _, by simp⟩
      rw [List.getLast?_eq_none_iff] at ha
      subst ha
      rw [hT2]
      exact c2
    | some b =>
      have mb : b ∈ A := List.mem_of_getLast? ha
      have m1 : b ∈ S2.sweepLine := by rw [hT2]; simp [mb]
      have m2 : e ∈ S2.sweepLine := by rw [hT2]; simp
      have m3 : b ≠ e := by rintro rfl; exact eA mb
      obtain ⟨k1, k2, k3, _⟩ := detectIntersection_spec g i2 (a := b) (b := e) m1 m2 m3
      have hL2 : ∀ x ∈ A ++ e :: B, IsL S2 x := fun x hx => x2.isL (hL1 x hx)
      refine ⟨⟨k1, ?_⟩, k2, fun b' hb' hr' => ?_⟩
      · rw [k2.sweepLine, hT2, List.isChain_append]
        refine ⟨k2.chain (fun x hx => hL2 x (by simp [hx])) cA,
          k2.chain (fun x hx => hL2 x (by simp only [List.mem_append]; exact Or.inr hx)) c2, ?_⟩
        intro x hx y hy
        rw [ha] at hx
        cases hx
        cases hy
        exact k3
      · cases hb'
        refine detect_end g i2 m1 m2 m3 ((x2.ret ?_ ?_).mpr ((ret1 _ _).mpr hr'))
        · exact (hL1 b (by simp [mb])).1
        · exact (hL1 e (by simp)).1
  have e2 : S.process e = S3 := by rw [hS3, e1]
  subst hS1
  exact ⟨A, B, S2, S3, hT, hf, hadd, h1, i2, i3, x2, x3, hS2, hS3, e2, r2, r3⟩

/-- An overlapping event with the same start is a neighbour. -/
theorem adjacent_of_coll {A B : List ℕ} {y : ℕ}
    (srt : (A ++ e :: B).Pairwise (fun x y => BelowE c (S.sid x) (S.sid y) (c.X p)))
    (hy : y ∈ A ++ e :: B) (hye : y ≠ e) (hc : CollE c S y e) : A.getLast? = some y ∨ B.head? = some y := by
  rw [List.pairwise_append, List.pairwise_cons] at srt
  rcases List.mem_append.mp hy with k | k
  · left
    rcases List.eq_nil_or_concat' A with rfl | ⟨A', b, rfl⟩
    · simp at k
    · rw [List.getLast?_concat]
      rcases List.mem_append.mp k with m | m
      · exfalso
        have k1 := srt.1
        rw [List.pairwise_append] at k1
        have k2 := k1.2.2 y m b (by simp)
        have k3 := srt.2.2 b (by simp) e (by simp)
        rcases k2 with k2 | ⟨k2, k2', k2''⟩ <;> rcases k3 with k3 | ⟨k3, k3', k3''⟩
        · exact aboveR_not_coll (aboveR_trans k2 k3) hc
        · exact aboveR_not_coll (aboveR_coll_right k3 k2) hc
        · exact aboveR_not_coll (aboveR_coll_left k2.symm k3) hc
        · exact k2'' k3'
      · rw [List.mem_singleton] at m; rw [m]
  · right
    rcases List.mem_cons.mp k with k | k
    · exact absurd k hye
    · cases B with
      | nil => simp at k
      | cons a B =>
        rw [List.head?_cons]
        rcases List.mem_cons.mp k with m | m
        · rw [m]
        · exfalso
          have k2 := srt.2.1.1 a (by simp)
          have k3 := (List.pairwise_cons.mp srt.2.1.2).1 y m
          have hc := hc.symm
          rcases k2 with k2 | ⟨k2, k2', k2''⟩ <;> rcases k3 with k3 | ⟨k3, k3', k3''⟩
          · exact aboveR_not_coll (aboveR_trans k2 k3) hc
          · exact aboveR_not_coll (aboveR_coll_right k3 k2) hc
          · exact aboveR_not_coll (aboveR_coll_left k2.symm k3) hc
          · exact k2'' k3'

end

/-! ### The two auxiliary invariants -/

theorem CollB.ext {S S' : Lin} (h : CollB c S) (x : Ext c S S') : CollB c S' := by
  have old : ∀ {y}, IsL S' y → y ∉ S'.queue → IsL S y ∧ y ∉ S.queue := by
    intro y hy hq
    have hc : y < cnt S := by
      by_contra k
      exact hq (x.newq y hy.1 (not_lt.mp k))
    exact ⟨⟨hc, hy.2⟩, fun z => hq ((x.queue y hc).mpr z)⟩
  intro a b ha hb hqa hqb hc hl
  obtain ⟨a1, a2⟩ := old ha hqa
  obtain ⟨b1, b2⟩ := old hb hqb
  unfold CollE at hc
  rw [x.sid a a1.1, x.sid b b1.1] at hc
  rw [x.lx a1.1, x.lx b1.1] at hl
  rw [x.sid b b1.1]
  exact (x.rx a a1).trans (h a b a1 b1 a2 b2 hc hl)

theorem Pass.ext {S S' : Lin} {p : Point} (h : Pass c S p) (x : Ext c S S')
    (hq : ∀ e ∈ S'.queue, c.X p ≤ lx c S' e) : Pass c S' p := by
  have old : ∀ {y}, IsL S' y → lx c S' y < c.X p → IsL S y := by
    intro y hy hl
    refine ⟨?_, hy.2⟩
    by_contra k
    have := hq y (x.newq y hy.1 (not_lt.mp k))
    linarith
  intro a b ha hb oa ob hi hl hr
  have a1 := old ha hi.1
  have b1 := old hb hl
  rw [x.sid a a1.1] at oa
  rw [x.sid b b1.1] at ob
  rw [x.lx b1.1] at hl
  have hi' : Int c S a (c.X p) := ⟨by rw [← x.lx a1.1]; exact hi.1, lt_of_lt_of_le hi.2 (x.rx a a1)⟩
  rcases h a b a1 b1 oa ob hi' hl (hr.trans (x.rx b b1)) with k | ⟨z, hz, zc, zl⟩
  · left; unfold CollE; rw [x.sid a a1.1, x.sid b b1.1]; exact k
  · right
    refine ⟨z, x.isL hz, ?_, by rw [x.lx hz.1]; exact zl⟩
    unfold CollE; rw [x.sid a a1.1, x.sid z hz.1]; exact zc

theorem Pass.advance {S : Lin} {p : Point} (h : Inv c S p) (hcb : CollB c S) {e0 : ℕ}
    (he0 : e0 ∈ S.queue) (hmin : ∀ e ∈ S.queue, lx c S e0 ≤ lx c S e) (hlt : c.X p < lx c S e0) :
    Pass c S (S.start e0) := by
  intro x y hx hy ox oy hi hl hr
  change Int c S x (lx c S e0) at hi
  change lx c S y < lx c S e0 at hl
  change lx c S e0 ≤ rx c S y at hr
  have onq : ∀ {e}, lx c S e < lx c S e0 → e ∉ S.queue := fun h1 h2 => absurd (hmin _ h2) (not_le.mpr h1)
  have hr' : ∀ e ∈ S.sweepLine, lx c S e0 ≤ rx c S e := fun e he => hmin _ ((h.tmem e).mp he).2.2
  have hl' : ∀ e ∈ S.sweepLine, lx c S e < lx c S e0 := fun e he => lt_of_le_of_lt (h.lx_le he) hlt
  have hxT : x ∈ S.sweepLine := h.mem_of hx (onq hi.1) (hlt.trans hi.2)
  have hyT : y ∈ S.sweepLine := h.mem_of hy (onq hl) (lt_of_lt_of_le hlt hr)
  by_cases hc : CollE c S x y
  · exact Or.inl hc
  right
  obtain ⟨a, ha, b, hb, k1, k2, k3, k4, k5⟩ := h.walk (t := lx c S e0) (w := (S.start e0).y)
    (fun e he => (hl' e he).le) hr' (fun z => CollE c S x z ∧ lx c S e0 < rx c S z) hxT hyT ox.symm oy.symm
    ⟨Ctx.Coll.refl _, hi.2⟩ (fun z => hc z.1)
  have aL := h.isL ha
  have bL := h.isL hb
  by_cases hab : CollE c S a b
  · have rb : rx c S b = lx c S e0 := by
      refine le_antisymm (not_lt.mp fun z => k4 ⟨Ctx.Coll.trans k3.1 hab, z⟩) (hr' b hb)
    have hlab : lx c S a = lx c S b := by
      rcases k5.1 hab with (z | z) | ⟨z, _⟩
      · have := hl' b hb; have := k3.2; linarith
      · have := hl' a ha; linarith
      · exact z
    have hB := hcb a b aL bL (onq (hl' a ha)) (onq (hl' b hb)) hab hlab
    have sb : Spans c (S.sid b) (lx c S e0) :=
      ⟨(h.wf.inA b bL).trans (hl' b hb).le, lt_of_lt_of_le k3.2 hB⟩
    obtain ⟨z, hz, zs, z1, z2⟩ := h.wf.cover' (h.wf.sidLt b bL) sb
    have zb : z ≠ b := by rintro rfl; linarith
    have zl : lx c S z = lx c S e0 := by
      rcases h.wf.noOv z b hz bL zb (by unfold SameOp; rw [zs]) (by unfold CollE; rw [zs]; exact Ctx.Coll.refl _) with k | k
      · have := hl' b hb; linarith
      · linarith
    refine ⟨z, hz, ?_, zl⟩
    unfold CollE; rw [zs]; exact Ctx.Coll.trans k3.1 hab
  · exact absurd ⟨hl' a ha, k3.2⟩
      (k5.2 hab (lx c S e0) (k1.trans k2.symm) (hl' a ha).le (hr' a ha) (hl' b hb).le (hr' b hb)).1

end Rene.Sweep
