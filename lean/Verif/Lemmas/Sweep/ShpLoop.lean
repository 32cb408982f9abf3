import Verif.Lemmas.Sweep.ShpProc

/-! The loop of the shaped engine. -/

namespace Rene.Sweep
open Rene Spec

variable {c : Ctx}

/-- What an iteration for a right event does. -/
structure ShpRight (c : Ctx) (S S' : Shp) (e : ℕ) : Prop where
  lin : S'.lin = S.lin.process e
  interior : S'.interior = S.interior
  len : SLen S'
  starts : ∀ x, S'.startsIds.getD x none = (S.number e).startsIds.getD x none
  first : S'.currentFirst = (S.number e).currentFirst
  id : S'.currentId = (S.number e).currentId
  other : ∀ x, flag S'.other x = flag S.other x
  fromResult : ∀ x, flag S'.fromResult x = flag S.fromResult x
  below : ∀ x, bel S' x = bel S x
  kinds : ∀ x, x % 2 = 0 → S'.kind x = S.kind x ∨ ∃ y, Popped S.lin x ∧ Popped S.lin y ∧ x ≠ y ∧ Ret c S.lin x y ∧
    S'.kind x = kindOf (fun i => S.interior.getD i false) (S.lin.sid x) (S.lin.sid y)

theorem number_fields (S : Shp) (e : ℕ) : (S.number e).lin = S.lin ∧ (S.number e).interior = S.interior ∧
    (S.number e).other = S.other ∧ (S.number e).fromResult = S.fromResult ∧
    (S.number e).belowFromResult = S.belowFromResult ∧ (S.number e).kinds = S.kinds ∧
    (S.number e).startsIds.length = S.startsIds.length := by
  unfold Shp.number
  split <;> simp

theorem shp_right {op : ShpOp} {S : Shp} {p : Point} {e : ℕ} (g : c.Good) (h : Inv c S.lin p) (l : Least c S.lin e)
    (hp : lx c S.lin e = c.X p) (hr : ¬ isLeft e = true) (hlen : SLen S) :
    (S.process op e).2 = true ∧ ShpRight c S (S.process op e).1 e := by
  have he := h.qlt e l.mem
  have ho := h.wf.toLeft he
  rw [toLeft_right hr] at ho
  have hoT := (h.right g l hp hr).2.2.1
  obtain ⟨A, B, hT⟩ := List.append_of_mem hoT
  have hqok : S.lin.queueOk = true := h.wf.queueOk h.qlt
  have hrm := h.removed g l hp hr hT S.lin.ok
  have hs := h.toInv0.split hT
  have s1 : Split (Lin.sweepLt { S.lin with queue := S.lin.queue.erase e }) (S.lin.opp e) A B := hs
  have s2 : (Lin.sweepLine { S.lin with queue := S.lin.queue.erase e }) = A ++ S.lin.opp e :: B := hT
  have f := s1.find s2
  have fa := s1.above s2
  have fb := s1.below s2
  have fr := s1.remove s2
  have hoe : Lin.opp { S.lin with queue := S.lin.queue.erase e } e = S.lin.opp e := rfl
  have hl : isLeft (Lin.opp { S.lin with queue := S.lin.queue.erase e } e) = true := isLeft_iff.mpr ho.2
  generalize hS1 : ({ S.lin with queue := S.lin.queue.erase e, sweepLine := A ++ B, ok := S.lin.ok } : Lin) = S1
    at hrm
  have fr : ({ S.lin with queue := S.lin.queue.erase e } : Lin).remove (S.lin.opp e) = S1 := fr.trans hS1
  have e0 : ({ S with lin := { S.lin with queue := S.lin.queue.erase e, ok := S.lin.ok && S.lin.queueOk } } : Shp).number
      e = { S.number e with lin := { S.lin with queue := S.lin.queue.erase e } } := by
    rw [hqok, Bool.and_true]
    exact number_eq S _ S.lin e rfl
  have e1 : S.process op e = ((match A.getLast?, B.head? with
      | some b, some a => (({ S.number e with lin := S1 } : Shp).detectIntersection b a).1
      | _, _ => { S.number e with lin := S1 }), true) := by
    unfold Shp.process
    rw [if_neg hr]
    simp only [e0]
    unfold Shp.processRight
    simp only [hl, Bool.and_true]
    rw [hoe, f]
    simp only
    rw [fa, fb, fr]
    generalize A.getLast? = u
    generalize B.head? = v
    cases u <;> cases v <;> rfl
  have e2 : S.lin.process e = (match A.getLast?, B.head? with
      | some b, some a => S1.detectIntersection b a
      | _, _ => S1) := by
    unfold Lin.process
    rw [if_neg hr]
    unfold Lin.processRight
    simp only [hqok, Bool.and_true]
    simp only [hl, Bool.and_true]
    rw [hoe, f]
    simp only
    rw [fa, fb, fr]
    generalize A.getLast? = u
    generalize B.head? = v
    cases u <;> cases v <;> rfl
  obtain ⟨n1, n2, n3, n4, n5, n6, n7⟩ := number_fields S e
  have hc1 : cnt S1 = cnt S.lin := by rw [← hS1]
  have len1 : SLen ({ S.number e with lin := S1 } : Shp) := by
    constructor
    · show (S.number e).kinds.length * 2 = cnt S1; rw [hc1, n6]; exact hlen.1
    · show (S.number e).fromResult.length * 2 = cnt S1; rw [hc1, n4]; exact hlen.2
    · show (S.number e).belowFromResult.length * 2 = cnt S1; rw [hc1, n5]; exact hlen.3
    · show (S.number e).other.length * 2 = cnt S1; rw [hc1, n3]; exact hlen.4
    · show (S.number e).startsIds.length = cnt S1; rw [hc1, n7]; exact hlen.5
  have o1 : ∀ x, flag ({ S.number e with lin := S1 } : Shp).other x = flag S.other x := fun x => by
    show flag (S.number e).other x = _; rw [n3]
  have o2 : ∀ x, flag ({ S.number e with lin := S1 } : Shp).fromResult x = flag S.fromResult x := fun x => by
    show flag (S.number e).fromResult x = _; rw [n4]
  have o3 : ∀ x, bel ({ S.number e with lin := S1 } : Shp) x = bel S x := fun x => by
    show (S.number e).belowFromResult.getD _ _ = _; rw [n5]; rfl
  have o4 : ∀ x, ({ S.number e with lin := S1 } : Shp).kind x = S.kind x := fun x => by
    show (S.number e).kinds.getD _ _ = _; rw [n6]; rfl
  rw [e1]
  refine ⟨rfl, ?_⟩
  simp only
  have trivial_case (hh : S.lin.process e = S1) : ShpRight c S ({ S.number e with lin := S1 } : Shp) e :=
    ⟨hh.symm, n2, len1, fun _ => rfl, rfl, rfl, o1, o2, o3, fun x _ => Or.inl (o4 x)⟩
  cases hA : A.getLast? with
  | none => rw [hA] at e2; exact trivial_case e2
  | some b =>
    cases hB : B.head? with
    | none => rw [hA, hB] at e2; exact trivial_case e2
    | some a =>
      rw [hA, hB] at e2
      simp only at e2 ⊢
      have mb : b ∈ A := List.mem_of_getLast? hA
      have ma : a ∈ B := List.mem_of_mem_head? hB
      have hT1 : S1.sweepLine = A ++ B := by rw [← hS1]
      have bT : b ∈ S.lin.sweepLine := by rw [hT]; simp [mb]
      have aT : a ∈ S.lin.sweepLine := by rw [hT]; simp [ma]
      have b1 : b ∈ S1.sweepLine := by rw [hT1]; simp [mb]
      have a1 : a ∈ S1.sweepLine := by rw [hT1]; simp [ma]
      have bp : Popped S.lin b := ⟨h.isL bT, ((h.tmem b).mp bT).2.1⟩
      have ap : Popped S.lin a := ⟨h.isL aT, ((h.tmem a).mp aT).2.1⟩
      have hba : b ≠ a := by
        have nd := hrm.tnd
        rw [hT1, List.nodup_append] at nd
        exact nd.2.2 b mb a ma
      have bL := hrm.isL b1
      have aL := hrm.isL a1
      have k := detectIntersection_sdet ({ S.number e with lin := S1 } : Shp) len1 (b := b) (e := a) bL.1 aL.1
      have rr := sret_iff g (T := ({ S.number e with lin := S1 } : Shp)) (b := b) (e := a) hrm.wf bL aL
      have rr' : Ret c S1 b a ↔ Ret c S.lin b a := by rw [← hS1]; exact Iff.rfl
      obtain ⟨_, xt, _⟩ := detectIntersection_spec g hrm b1 a1 hba
      have sa : ∀ x, x < cnt S.lin → (S1.detectIntersection b a).sid x = S.lin.sid x := by
        intro x hx
        rw [xt.sid x (by rw [hc1]; exact hx), ← hS1]; rfl
      refine ⟨by rw [k.lin, e2], by rw [k.interior]; exact n2, k.len, k.starts, k.first, k.id,
        fun x => (k.other x).trans (o1 x), fun x => (k.fromResult x).trans (o2 x), fun x => (k.below x).trans (o3 x),
        fun x hx => ?_⟩
      rw [k.kinds x]
      by_cases hc : (({ S.number e with lin := S1 } : Shp).detectIntersection b a).2 = true ∧ (x / 2 = b / 2 ∨ x / 2 = a / 2)
      · right
        rw [if_pos hc]
        have hR := rr'.mp (rr.mp hc.1)
        rw [k.lin]
        have ei : (fun i => ({ S.number e with lin := S1 } : Shp).interior.getD i false) = fun i => S.interior.getD i false := by
          funext i
          show (S.number e).interior.getD i false = _
          rw [n2]
        rw [ei, sa a ap.1.1, sa b bp.1.1]
        have hb2 := bp.1.2
        have ha2 := ap.1.2
        rcases hc.2 with z | z
        · have : x = b := by omega
          subst this
          exact ⟨a, bp, ap, hba, hR, kindOf_comm _ _ _⟩
        · have : x = a := by omega
          subst this
          exact ⟨b, ap, bp, hba.symm, hR.symm, rfl⟩
      · rw [if_neg hc]
        exact Or.inl (o4 x)

/-- The numbers of the starts of the processed events. -/
structure Ids (c : Ctx) (S : Shp) : Prop where
  lt : S.currentFirst < cnt S.lin ∨ S.lin.queue = []
  le : ∀ x < cnt S.lin, x ∉ S.lin.queue → lx c S.lin x ≤ lx c S.lin S.currentFirst
  ge : ∀ x ∈ S.lin.queue, lx c S.lin S.currentFirst ≤ lx c S.lin x
  id : ∀ x < cnt S.lin, x ∉ S.lin.queue → ∃ i ≤ S.currentId, S.startsIds.getD x none = some i ∧
    (i = S.currentId ↔ lx c S.lin x = lx c S.lin S.currentFirst)
  eq : ∀ x < cnt S.lin, ∀ y < cnt S.lin, x ∉ S.lin.queue → y ∉ S.lin.queue →
    (S.startsIds.getD x none = S.startsIds.getD y none ↔ lx c S.lin x = lx c S.lin y)

theorem Ids.step {S S' : Shp} {p : Point} {e : ℕ} (g : c.Good) (h : Ids c S) (hi : Inv c S.lin p) (hlen : SLen S)
    (l : Least c S.lin e) (hp : lx c S.lin e = c.X p)
    (s : Step c S.lin S'.lin e) (hi' : Inv c S'.lin p)
    (starts : ∀ x, S'.startsIds.getD x none = (S.number e).startsIds.getD x none)
    (first : S'.currentFirst = (S.number e).currentFirst) (id : S'.currentId = (S.number e).currentId) : Ids c S' := by
  have he := hi.qlt e l.mem
  have hcf : S.currentFirst < cnt S.lin := h.lt.resolve_right (by
    intro z; have := l.mem; rw [z] at this; simp at this)
  have hst : S.lin.start S.currentFirst ≠ S.lin.start e ↔ lx c S.lin S.currentFirst ≠ lx c S.lin e := by
    refine not_congr ?_
    exact g.eq_iff (hi.wf.memP _ hcf) (hi.wf.memP e he)
  have hse : e < S.startsIds.length := by rw [hlen.starts]; exact he
  have old : ∀ x < cnt S'.lin, x ∉ S'.lin.queue → x < cnt S.lin ∧ (x = e ∨ x ∉ S.lin.queue) := by
    intro x hx hq
    have hxc : x < cnt S.lin := by
      by_contra z
      exact hq (s.new x hx (not_lt.mp z))
    refine ⟨hxc, ?_⟩
    by_cases hxe : x = e
    · exact Or.inl hxe
    · exact Or.inr fun z => hq ((s.queue x hxc hxe).mpr z)
  by_cases hn : lx c S.lin S.currentFirst = lx c S.lin e
  · have e1 : (S.number e).currentFirst = S.currentFirst := by
      unfold Shp.number; rw [if_neg (by rw [hst, not_not]; exact hn)]
    have e2 : (S.number e).currentId = S.currentId := by
      unfold Shp.number; rw [if_neg (by rw [hst, not_not]; exact hn)]
    have e3 : (S.number e).startsIds = S.startsIds.set e (some S.currentId) := by
      unfold Shp.number; rw [if_neg (by rw [hst, not_not]; exact hn)]
    rw [e1] at first
    rw [e2] at id
    have e4 : ∀ x, S'.startsIds.getD x none = if x = e then some S.currentId else S.startsIds.getD x none := by
      intro x; rw [starts, e3, getD_set hse]
    have key : ∀ x < cnt S'.lin, x ∉ S'.lin.queue → ∃ i ≤ S.currentId, S'.startsIds.getD x none = some i ∧
        (i = S.currentId ↔ lx c S.lin x = lx c S.lin S.currentFirst) := by
      intro x hx hq
      obtain ⟨hxc, hxe⟩ := old x hx hq
      rw [e4]
      by_cases k : x = e
      · rw [if_pos k]
        exact ⟨_, le_refl _, rfl, by simp [k, hn]⟩
      · rw [if_neg k]
        exact h.id x hxc (hxe.resolve_left k)
    refine ⟨Or.inl (by rw [first]; exact lt_of_lt_of_le hcf s.cnt), fun x hx hq => ?_, fun x hx => ?_, fun x hx hq => ?_,
      fun x hx y hy hqx hqy => ?_⟩
    · obtain ⟨hxc, hxe⟩ := old x hx hq
      rw [first, s.lx hxc, s.lx hcf]
      rcases hxe with rfl | hxe
      · exact hn.ge
      · exact h.le x hxc hxe
    · have := hi'.qge x hx
      rw [first, s.lx hcf, hn, hp]; exact this
    · rw [first, id, s.lx (old x hx hq).1, s.lx hcf]
      exact key x hx hq
    · obtain ⟨hxc, hxe⟩ := old x hx hqx
      obtain ⟨hyc, hye⟩ := old y hy hqy
      rw [s.lx hxc, s.lx hyc]
      obtain ⟨i, i1, i2, i3⟩ := key x hx hqx
      obtain ⟨j, j1, j2, j3⟩ := key y hy hqy
      by_cases kx : x = e
      · by_cases ky : y = e
        · rw [kx, ky]; simp
        · have : i = S.currentId := i3.mpr (by rw [kx]; exact hn.symm)
          rw [i2, j2, this, kx, ← hn, Option.some_inj, eq_comm, j3, eq_comm]
      · by_cases ky : y = e
        · have : j = S.currentId := j3.mpr (by rw [ky]; exact hn.symm)
          rw [i2, j2, this, ky, ← hn, Option.some_inj, i3]
        · rw [e4, e4, if_neg kx, if_neg ky]
          exact h.eq x hxc y hyc (hxe.resolve_left kx) (hye.resolve_left ky)
  · have hlt : lx c S.lin S.currentFirst < lx c S.lin e := lt_of_le_of_ne (h.ge e l.mem) hn
    have e1 : (S.number e).currentFirst = e := by
      unfold Shp.number; rw [if_pos (hst.mpr hn)]
    have e2 : (S.number e).currentId = S.currentId + 1 := by
      unfold Shp.number; rw [if_pos (hst.mpr hn)]
    have e3 : (S.number e).startsIds = S.startsIds.set e (some (S.currentId + 1)) := by
      unfold Shp.number; rw [if_pos (hst.mpr hn)]
    rw [e1] at first
    rw [e2] at id
    have e4 : ∀ x, S'.startsIds.getD x none = if x = e then some (S.currentId + 1) else S.startsIds.getD x none := by
      intro x; rw [starts, e3, getD_set hse]
    have key : ∀ x < cnt S.lin, x ∉ S.lin.queue → x ≠ e → ∃ i ≤ S.currentId, S'.startsIds.getD x none = some i ∧
        lx c S.lin x < lx c S.lin e := by
      intro x hx hq hxe
      obtain ⟨i, i1, i2, _⟩ := h.id x hx hq
      exact ⟨i, i1, by rw [e4, if_neg hxe]; exact i2, lt_of_le_of_lt (h.le x hx hq) hlt⟩
    refine ⟨Or.inl (by rw [first]; exact lt_of_lt_of_le he s.cnt), fun x hx hq => ?_, fun x hx => ?_, fun x hx hq => ?_,
      fun x hx y hy hqx hqy => ?_⟩
    · obtain ⟨hxc, hxe⟩ := old x hx hq
      rw [first, s.lx hxc, s.lx he]
      rcases hxe with rfl | hxe
      · exact le_refl _
      · exact (h.le x hxc hxe).trans hlt.le
    · have := hi'.qge x hx
      rw [first, s.lx he, hp]; exact this
    · obtain ⟨hxc, hxe⟩ := old x hx hq
      rw [first, id, s.lx hxc, s.lx he]
      by_cases k : x = e
      · refine ⟨S.currentId + 1, le_refl _, ?_, ?_⟩
        · rw [e4, if_pos k]
        · simp [k]
      · obtain ⟨i, i1, i2, i3⟩ := key x hxc (hxe.resolve_left k) k
        refine ⟨i, by omega, i2, ?_⟩
        constructor
        · intro z; omega
        · intro z; exact absurd z (ne_of_lt i3)
    · obtain ⟨hxc, hxe⟩ := old x hx hqx
      obtain ⟨hyc, hye⟩ := old y hy hqy
      rw [s.lx hxc, s.lx hyc]
      by_cases kx : x = e
      · by_cases ky : y = e
        · rw [kx, ky]; simp
        · obtain ⟨j, j1, j2, j3⟩ := key y hyc (hye.resolve_left ky) ky
          rw [j2, kx, e4, if_pos rfl, Option.some_inj]
          constructor
          · intro z; omega
          · intro z; exact absurd z.symm (ne_of_lt j3)
      · by_cases ky : y = e
        · obtain ⟨j, j1, j2, j3⟩ := key x hxc (hxe.resolve_left kx) kx
          rw [j2, ky, e4, if_pos rfl, Option.some_inj]
          constructor
          · intro z; omega
          · intro z; exact absurd z (ne_of_lt j3)
        · rw [e4, e4, if_neg kx, if_neg ky]
          exact h.eq x hxc y hyc (hxe.resolve_left kx) (hye.resolve_left ky)

end Rene.Sweep
