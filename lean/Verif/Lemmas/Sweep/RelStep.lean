import Verif.Lemmas.Sweep.Loop

/-! What processing a left event does to the pieces: used for the relation of two linear geometries, where the
events with a common start are looked at before the sweep goes on. -/

namespace Rene.Sweep
open Rene Spec

variable {c : Ctx} {S : Lin} {p : Point} {e : ℕ}

/-- The two intersection tests for a left event. -/
theorem Inv.leftShape (g : c.Good) (h : Inv c S p) (l : Least c S e) (hp : lx c S e = c.X p)
    (hl : isLeft e = true) : ∃ (A B : List ℕ) (S2 : Lin), S.sweepLine = A ++ B ∧
    Inv0 c { S with queue := S.queue.erase e, sweepLine := A ++ e :: B, ok := S.ok } p ∧
    S2 = (match B.head? with
      | some a => Lin.detectIntersection { S with queue := S.queue.erase e, sweepLine := A ++ e :: B, ok := S.ok } e a
      | none => { S with queue := S.queue.erase e, sweepLine := A ++ e :: B, ok := S.ok }) ∧
    Inv0 c S2 p ∧ Ext c { S with queue := S.queue.erase e, sweepLine := A ++ e :: B, ok := S.ok } S2 ∧
    S.process e = (match A.getLast? with
      | some b => S2.detectIntersection b e
      | none => S2) := by
  have hqok : S.queueOk = true := h.wf.queueOk h.qlt
  obtain ⟨hf, A, B, hT, hadd, h1⟩ := h.added g l hp hl S.ok
  let S1 : Lin := { S with queue := S.queue.erase e, sweepLine := A ++ e :: B, ok := S.ok }
  have hsp := h1.split (A := A) (B := B) (o := e) rfl
  have ndT := h1.tnd
  change (A ++ e :: B).Nodup at ndT
  rw [List.nodup_append] at ndT
  have eB : e ∉ B := (List.nodup_cons.mp ndT.2.1).1
  obtain ⟨S2, hS2, i2, x2⟩ : ∃ S2, S2 = (match B.head? with
      | some a => S1.detectIntersection e a
      | none => S1) ∧ Inv0 c S2 p ∧ Ext c S1 S2 := by
    refine ⟨_, rfl, ?_⟩
    cases hb : B.head? with
    | none => exact ⟨h1, Ext.refl _⟩
    | some a =>
      have ma : a ∈ B := List.mem_of_mem_head? hb
      obtain ⟨k1, k2, -⟩ := detectIntersection_spec g h1 (a := e) (b := a) (by show e ∈ A ++ e :: B; simp)
        (by show a ∈ A ++ e :: B; simp [ma]) (by rintro rfl; exact eB ma)
      exact ⟨k1, k2⟩
  refine ⟨A, B, S2, hT, h1, hS2, i2, x2, ?_⟩
  rw [hS2]
  unfold Lin.process
  rw [if_pos hl]
  unfold Lin.processLeft
  simp only [hqok, Bool.and_true]
  have hf' : Lin.find { S with queue := S.queue.erase e } e = none := hf
  have ha' : Lin.add { S with queue := S.queue.erase e } e = S1 := by
    show Lin.mk S.firstCount S.endpoints S.opposites S.segmentsIds (S.queue.erase e) (S.add e).sweepLine S.ok = S1
    rw [hadd]
  rw [hf']
  simp only
  rw [ha']
  have fa : S1.above e = B.head? := hsp.above rfl
  have fb : S1.below e = A.getLast? := hsp.below rfl
  rw [fa, fb]
  generalize A.getLast? = u
  generalize B.head? = v
  cases u <;> cases v <;> rfl

/-- What processing the left event `e` changes. -/
structure LChg (c : Ctx) (S S' : Lin) (e : ℕ) : Prop where
  chg : ∀ x, IsL S x → rx c S' x ≠ rx c S x → ∃ u, (u ∈ S.sweepLine ∧ x = e ∨ u = e ∧ x ∈ S.sweepLine) ∧
    ∃ t, Int c S x t ∧ c.f (S.sid x) t = c.f (S.sid u) t ∧ lx c S u ≤ t ∧ t ≤ rx c S u
  ins : ∀ y, cnt S ≤ y → y < cnt S' → ∃ x, (x = e ∨ x ∈ S.sweepLine) ∧ c.On (S.sid x) (S'.start y) ∧
    Int c S x (lx c S' y)
  twin : ∀ x ∈ S.sweepLine, CollE c S x e → lx c S x = lx c S e → rx c S' x = rx c S' e

/-- A collinear neighbour with the same start is next to the event. -/
theorem between (h : Inv0 c S p) {x y z : ℕ} {A : List ℕ} (hs : (x :: A).Pairwise (SLt c S))
    (hx : lx c S x = c.X p) (hA : ∀ z ∈ A, z ∈ S.sweepLine)
    (hzA : z ∈ A) (hz : A.head? = some y) (hc : CollE c S x z) (hlz : lx c S z = c.X p) : y = z := by
  by_contra hne
  cases A with
  | nil => simp at hz
  | cons a A' =>
    simp only [List.head?_cons, Option.some.injEq] at hz
    subst hz
    have hzA' : z ∈ A' := by
      rcases List.mem_cons.mp hzA with k | k
      · exact absurd k.symm hne
      · exact k
    rw [List.pairwise_cons, List.pairwise_cons] at hs
    have h1 := hs.1 a (by simp)
    have h2 := hs.2.1 z hzA'
    have h3 := h.lx_le (hA a (by simp))
    unfold SLt at h1 h2
    rw [hx, max_eq_left h3] at h1
    rw [hlz, max_eq_right h3] at h2
    have e1 : c.f (S.sid x) (c.X p) = c.f (S.sid z) (c.X p) := hc.f_eq _
    have e2 : c.K (S.sid x) = c.K (S.sid z) := hc.1
    rcases h1 with k1 | ⟨k1, k1', k1''⟩
    · rcases h2 with k2 | ⟨k2, k2', k2''⟩
      · unfold AboveR at k1 k2
        rcases k1 with k1 | ⟨k1, k3⟩ <;> rcases k2 with k2 | ⟨k2, k4⟩ <;> linarith
      · exact aboveR_not_coll k1 (Ctx.Coll.trans hc (Ctx.Coll.symm k2))
    · rcases h2 with k2 | ⟨k2, k2', k2''⟩
      · exact aboveR_not_coll k2 (Ctx.Coll.trans (Ctx.Coll.symm k1) hc)
      · exact k1'' k2'

theorem Inv.leftChg (g : c.Good) (h : Inv c S p) (l : Least c S e) (hp : lx c S e = c.X p)
    (hl : isLeft e = true) : LChg c S (S.process e) e := by
  obtain ⟨he, hr, heT, hop⟩ := h.leftBasic l hp hl
  obtain ⟨A, B, S2, hT, h1, hS2, i2, x2, hS3⟩ := h.leftShape g l hp hl
  set S1 : Lin := { S with queue := S.queue.erase e, sweepLine := A ++ e :: B, ok := S.ok } with hS1
  have hlx : ∀ x, lx c S1 x = lx c S x := fun _ => rfl
  have hrx : ∀ x, rx c S1 x = rx c S x := fun _ => rfl
  have hsid : ∀ x, S1.sid x = S.sid x := fun _ => rfl
  have hL : ∀ x, IsL S1 x ↔ IsL S x := fun _ => Iff.rfl
  have ndT := h1.tnd
  change (A ++ e :: B).Nodup at ndT
  rw [List.nodup_append] at ndT
  have eA : e ∉ A := fun z => ndT.2.2 e z e (by simp) rfl
  have eB : e ∉ B := (List.nodup_cons.mp ndT.2.1).1
  have mA : ∀ x ∈ A, x ∈ S.sweepLine := fun x hx => by rw [hT]; simp [hx]
  have mB : ∀ x ∈ B, x ∈ S.sweepLine := fun x hx => by rw [hT]; simp [hx]
  have hT2 : S2.sweepLine = A ++ e :: B := x2.sweepLine
  have heq2 : ∀ x, IsL S x → lx c S2 x = lx c S x ∧ S2.sid x = S.sid x ∧ rx c S2 x ≤ rx c S x := fun x hx =>
    ⟨x2.lx ((hL x).mpr hx).1, x2.sid x ((hL x).mpr hx).1, x2.rx x ((hL x).mpr hx)⟩
  -- the first test
  have c2 : (S2 = S1 ∧ B = []) ∨ ∃ a, B.head? = some a ∧ a ∈ B ∧ Chg c S1 S2 e a := by
    cases hb : B.head? with
    | none => rw [hb] at hS2; exact Or.inl ⟨hS2, List.head?_eq_none_iff.mp hb⟩
    | some a =>
      right
      rw [hb] at hS2
      have ma : a ∈ B := List.mem_of_mem_head? hb
      obtain ⟨-, -, -, k⟩ := detectIntersection_spec g h1 (a := e) (b := a) (by show e ∈ A ++ e :: B; simp)
        (by show a ∈ A ++ e :: B; simp [ma]) (by rintro rfl; exact eB ma)
      have hS2' : S2 = S1.detectIntersection e a := hS2
      rw [← hS2'] at k
      exact ⟨a, rfl, ma, k⟩
  have c3 : (S.process e = S2 ∧ A = []) ∨ ∃ b, A.getLast? = some b ∧ b ∈ A ∧ Chg c S2 (S.process e) b e ∧
      Ext c S2 (S.process e) := by
    cases ha : A.getLast? with
    | none => rw [ha] at hS3; exact Or.inl ⟨hS3, List.getLast?_eq_none_iff.mp ha⟩
    | some b =>
      right
      rw [ha] at hS3
      have mb : b ∈ A := List.mem_of_getLast? ha
      obtain ⟨-, x, -, k⟩ := detectIntersection_spec g i2 (a := b) (b := e) (by rw [hT2]; simp [mb])
        (by rw [hT2]; simp) (by rintro rfl; exact eA mb)
      have hS3' : S.process e = S2.detectIntersection b e := hS3
      rw [← hS3'] at k x
      exact ⟨b, rfl, mb, k, x⟩
  generalize S.process e = S3 at c3
  refine ⟨fun x hx hn => ?_, fun y hy hy' => ?_, fun x hx hc hxl => ?_⟩
  · -- changed pieces
    by_cases k : rx c S3 x = rx c S2 x
    · rw [k] at hn
      rcases c2 with ⟨k', -⟩ | ⟨a, ha, ma, k'⟩
      · rw [k'] at hn; exact absurd rfl hn
      · obtain ⟨q, t, q1, q2, q3, q4, q5, q6⟩ := k'.chg x hx hn
        rcases q with rfl | rfl
        · exact ⟨a, Or.inl ⟨mB a ma, rfl⟩, t, q1, q2, q5, q6⟩
        · exact ⟨e, Or.inr ⟨rfl, mB x ma⟩, t, q1, q2.symm, q3, q4⟩
    · rcases c3 with ⟨k', -⟩ | ⟨b, hb, mb, k', -⟩
      · rw [k'] at k; exact absurd rfl k
      · obtain ⟨q, t, q1, q2, q3, q4, q5, q6⟩ := k'.chg x (x2.isL hx) k
        obtain ⟨u1, u2, u3⟩ := heq2 x hx
        obtain ⟨v1, v2, v3⟩ := heq2 e he
        obtain ⟨w1, w2, w3⟩ := heq2 b (h.isL (mA b mb))
        have q1' : Int c S x t := ⟨by rw [← u1]; exact q1.1, lt_of_lt_of_le q1.2 u3⟩
        rw [v2, w2] at q2
        rcases q with rfl | rfl
        · exact ⟨e, Or.inr ⟨rfl, mA x mb⟩, t, q1', q2, by linarith, by linarith⟩
        · exact ⟨b, Or.inl ⟨mA b mb, rfl⟩, t, q1', q2.symm, by linarith, by linarith⟩
  · -- new events
    by_cases k : y < cnt S2
    · rcases c2 with ⟨k', -⟩ | ⟨a, ha, ma, k'⟩
      · rw [k'] at k; exact absurd k (not_lt.mpr hy)
      · obtain ⟨x, q1, q2, q3⟩ := k'.ins y hy k
        have hs : S3.start y = S2.start y := by
          rcases c3 with ⟨k', -⟩ | ⟨b, hb, mb, k', x⟩
          · rw [k']
          · exact x.start y k
        refine ⟨x, ?_, by rw [hs]; exact q2, by unfold lx; rw [hs]; exact q3⟩
        rcases q1 with rfl | rfl
        · exact Or.inl rfl
        · exact Or.inr (mB x ma)
    · rcases c3 with ⟨k', -⟩ | ⟨b, hb, mb, k', -⟩
      · rw [k'] at hy'; exact absurd hy' k
      · obtain ⟨x, q1, q2, q3⟩ := k'.ins y (not_lt.mp k) hy'
        have hxL : IsL S x := by
          rcases q1 with rfl | rfl
          · exact h.isL (mA x mb)
          · exact he
        obtain ⟨u1, u2, u3⟩ := heq2 x hxL
        refine ⟨x, ?_, by rw [← u2]; exact q2, ⟨by rw [← u1]; exact q3.1, lt_of_lt_of_le q3.2 u3⟩⟩
        rcases q1 with rfl | rfl
        · exact Or.inr (mA x mb)
        · exact Or.inl rfl
  · -- twins
    have hxL := h.isL hx
    have hxp : lx c S x = c.X p := hxl.trans hp
    have so := h1.sorted
    change (A ++ e :: B).Pairwise (SLt c S) at so
    rw [List.pairwise_append] at so
    rw [hT] at hx
    rcases List.mem_append.mp hx with hxA | hxB
    · -- below
      rcases c3 with ⟨-, k⟩ | ⟨b, hb, mb, k', -⟩
      · rw [k] at hxA; simp at hxA
      have hbx : b = x := by
        -- reversed order
        by_contra hne
        obtain ⟨A', hA'⟩ : ∃ A', A = A' ++ [b] := ⟨A.dropLast, (List.dropLast_append_getLast? b hb).symm⟩
        have hxA' : x ∈ A' := by
          rw [hA'] at hxA
          rcases List.mem_append.mp hxA with k | k
          · exact k
          · rw [List.mem_singleton] at k; exact absurd k.symm hne
        have s1 : SLt c S x b := by
          have := so.1
          rw [hA', List.pairwise_append] at this
          exact this.2.2 x hxA' b (by simp)
        have s2 : SLt c S b e := so.2.2 b mb e (by simp)
        have hbl := h.lx_le (mA b mb)
        unfold SLt at s1 s2
        rw [hxp, max_eq_left hbl] at s1
        rw [hp, max_eq_right hbl] at s2
        have e1 : c.f (S.sid x) (c.X p) = c.f (S.sid e) (c.X p) := hc.f_eq _
        have e2 : c.K (S.sid x) = c.K (S.sid e) := hc.1
        rcases s1 with k1 | ⟨k1, k1', k1''⟩
        · rcases s2 with k2 | ⟨k2, k2', k2''⟩
          · unfold AboveR at k1 k2
            rcases k1 with k1 | ⟨k1, k3⟩ <;> rcases k2 with k2 | ⟨k2, k4⟩ <;> linarith
          · exact aboveR_not_coll k1 (Ctx.Coll.trans hc (Ctx.Coll.symm k2))
        · rcases s2 with k2 | ⟨k2, k2', k2''⟩
          · exact aboveR_not_coll k2 (Ctx.Coll.trans (Ctx.Coll.symm k1) hc)
          · exact k1'' k2'
      subst hbx
      obtain ⟨u1, u2, u3⟩ := heq2 b hxL
      obtain ⟨v1, v2, v3⟩ := heq2 e he
      refine k'.same ?_ (by rw [u1, v1, hxl])
      unfold CollE at *
      rw [u2, v2]; exact hc
    · -- above
      rcases c2 with ⟨-, k⟩ | ⟨a, ha, ma, k'⟩
      · rw [k] at hxB; simp at hxB
      have hax : a = x := between h.toInv0 so.2.1 hp mB hxB ha (Ctx.Coll.symm hc) hxp
      subst hax
      have hsame := k'.same (Ctx.Coll.symm hc) hxl.symm
      obtain ⟨u1, u2, u3⟩ := heq2 a hxL
      obtain ⟨v1, v2, v3⟩ := heq2 e he
      rcases c3 with ⟨k, -⟩ | ⟨b, hb, mb, k3, -⟩
      · rw [k]; exact hsame.symm
      · have hbT := mA b mb
        obtain ⟨w1, w2, w3⟩ := heq2 b (h.isL hbT)
        have hbx : b ≠ a := by
          rintro rfl
          exact ndT.2.2 b mb b (by simp [hxB]) rfl
        have hbe : b ≠ e := by rintro rfl; exact eA mb
        have r1 : rx c S3 a = rx c S2 a := by
          by_contra k
          rcases (k3.chg a (x2.isL hxL) k).1 with q | q
          · exact hbx q.symm
          · exact eB (q ▸ hxB)
        have r2 : rx c S3 e = rx c S2 e := by
          by_contra k
          obtain ⟨-, t, q1, q2, q3, q4, q5, q6⟩ := k3.chg e (x2.isL he) k
          rw [v2, w2] at q2
          have hncoll : ¬ CollE c S b a := by
            intro z
            have n1 := h.toInv0.sameOp hbT (mB a hxB) hbx z
            have n2 := hop a (mB a hxB) hc
            have n3 := hop b hbT (Ctx.Coll.trans z hc)
            unfold SameOp at n1 n2 n3
            tauto
          have hch := h.chain
          rw [hT, List.isChain_append] at hch
          have hck := hch.2.2 b hb a ha
          have hf : c.f (S.sid b) t = c.f (S.sid a) t := by rw [q2]; exact (hc.f_eq t).symm
          have lt1 : lx c S a < t := by rw [hxl, ← v1]; exact q1.1
          have lt2 : t < rx c S a := by
            have := q1.2
            rw [hsame] at this
            linarith
          exact (hck.2 hncoll t hf (by linarith) (by linarith) lt1.le lt2.le).2 ⟨lt1, lt2⟩
        rw [r1, r2]; exact hsame.symm

end Rene.Sweep
