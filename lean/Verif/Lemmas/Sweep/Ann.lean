import Verif.Lemmas.Sweep.Flags

/-! Annotation of left events: preservation of the invariant of the flags by an iteration. -/

namespace Rene.Sweep
open Rene Spec

variable {c : Ctx}

/-- Popped left events. -/
def Popped (S : Lin) (x : ℕ) : Prop := IsL S x ∧ x ∉ S.queue

/-- What an iteration for a left event does to the flags. -/
structure LeftStep (c : Ctx) (S : Lin) (e : ℕ) (A B : List ℕ) (inte oth ov oth' ov' : ℕ → Bool) : Prop where
  othE : oth' e = fromBelow c S inte oth e A.getLast?
  othA : ∀ a, B.head? = some a → Ret c S e a → oth' a = fromBelow c S inte oth a (some e)
  othB : ∀ b, A.getLast? = some b → Ret c S b e → oth' b = oth b ∨
    ∃ A' bb, A = A' ++ [bb] ++ [b] ∧ oth' b = fromBelow c S inte oth b (some bb)
  othX : ∀ x, x % 2 = 0 → x ≠ e → ¬ (B.head? = some x ∧ Ret c S e x) → ¬ (A.getLast? = some x ∧ Ret c S x e) →
    oth' x = oth x
  ov : ∀ x, x % 2 = 0 → (ov' x = true ↔ ov x = true ∨
    (x = e ∧ ((∃ a, B.head? = some a ∧ Ret c S e a) ∨ ∃ b, A.getLast? = some b ∧ Ret c S b e)) ∨
    (B.head? = some x ∧ Ret c S e x) ∨ (A.getLast? = some x ∧ Ret c S x e))

/-- The invariant of the flags of operand `T`. -/
structure Ann (c : Ctx) (T : Bool) (q : ℕ → ℚ → Bool) (ok : ℚ → Prop) (S : Lin) (oth : ℕ → Bool) : Prop where
  val : ∀ x, Popped S x → opB c (S.sid x) = T → ok (lx c S x) → oth x = q (S.sid x) (lx c S x) ∨ Pending c S x
  fresh : ∀ x, x % 2 = 0 → (x ∈ S.queue ∨ cnt S ≤ x) → oth x = false

/-- The invariant of the overlap flags. -/
structure OvI (c : Ctx) (S : Lin) (ov : ℕ → Bool) : Prop where
  val : ∀ x, Popped S x → (ov x = true ↔ ∃ y, Popped S y ∧ y ≠ x ∧ Ret c S x y)
  fresh : ∀ x, x % 2 = 0 → (x ∈ S.queue ∨ cnt S ≤ x) → ov x = false

section
variable {S S' : Lin} {p : Point} {e : ℕ}

theorem Step.lx (s : Step c S S' e) {x : ℕ} (hx : x < Sweep.cnt S) : Sweep.lx c S' x = Sweep.lx c S x := by
  unfold Sweep.lx; rw [s.start x hx]

theorem Step.isL (s : Step c S S' e) {x : ℕ} (hx : IsL S x) : IsL S' x := ⟨lt_of_lt_of_le hx.1 s.cnt, hx.2⟩

/-- Popped left events after an iteration. -/
theorem Step.popped (s : Step c S S' e) {x : ℕ} : Popped S' x ↔ (Popped S x ∨ (x = e ∧ IsL S e)) := by
  constructor
  · rintro ⟨hx, hq⟩
    have hc : x < Sweep.cnt S := by
      by_contra k
      exact hq (s.new x hx.1 (not_lt.mp k))
    by_cases hxe : x = e
    · subst hxe
      exact Or.inr ⟨rfl, hc, hx.2⟩
    · exact Or.inl ⟨⟨hc, hx.2⟩, fun z => hq ((s.queue x hc hxe).mpr z)⟩
  · rintro (⟨hx, hq⟩ | ⟨rfl, hx⟩)
    · refine ⟨s.isL hx, fun z => ?_⟩
      by_cases hxe : x = e
      · subst hxe; exact s.gone z
      · exact hq ((s.queue x hx.1 hxe).mp z)
    · exact ⟨s.isL hx, s.gone⟩

theorem Step.queued (s : Step c S S' e) {x : ℕ} (hx : x < Sweep.cnt S) : x ∈ S'.queue → x ∈ S.queue ∧ x ≠ e := by
  intro h
  have hxe : x ≠ e := by rintro rfl; exact s.gone h
  exact ⟨(s.queue x hx hxe).mp h, hxe⟩

theorem Step.ret (s : Step c S S' e) {x y : ℕ} (hx : x < Sweep.cnt S) (hy : y < Sweep.cnt S) :
    Ret c S' x y ↔ Ret c S x y := by
  unfold Ret CollE
  rw [s.sid x hx, s.sid y hy, s.lx hx, s.lx hy]

theorem Step.pending (s : Step c S S' e) {x : ℕ} (hx : x < Sweep.cnt S)
    (h : Pending c { S with queue := S.queue.erase e } x) (hnd : S.queue.Nodup) (hq : ∀ e ∈ S.queue, e < Sweep.cnt S) :
    Pending c S' x := by
  obtain ⟨z, hz, zL, zc, zl, z1, z2⟩ := h
  have hz' := (hnd.mem_erase_iff).mp hz
  have zc' : z < Sweep.cnt S := hq z hz'.2
  refine ⟨z, (s.queue z zc' hz'.1).mpr hz'.2, s.isL ⟨zc', zL.2⟩, ?_, ?_, ?_, ?_⟩
  · unfold CollE; rw [s.sid z zc', s.sid x hx]; exact zc
  · rw [s.lx zc', s.lx hx]; exact zl
  · rw [s.sid z zc']; exact z1
  · rw [s.sid x hx]; exact z2

theorem Pass.step (h : Pass c S p) (x : Step c S S' e)
    (hq : ∀ e ∈ S'.queue, c.X p ≤ Sweep.lx c S' e) : Pass c S' p := by
  have old : ∀ {y}, IsL S' y → Sweep.lx c S' y < c.X p → IsL S y := by
    intro y hy hl
    refine ⟨?_, hy.2⟩
    by_contra k
    have := hq y (x.new y hy.1 (not_lt.mp k))
    linarith
  intro a b ha hb oa ob hi hl hr
  have a1 := old ha hi.1
  have b1 := old hb hl
  rw [x.sid a a1.1] at oa
  rw [x.sid b b1.1] at ob
  rw [x.lx b1.1] at hl
  have hi' : Int c S a (c.X p) := ⟨by rw [← x.lx a1.1]; exact hi.1, lt_of_lt_of_le hi.2 (x.rx a a1)⟩
  rcases h a b a1 b1 oa ob hi' hl (hr.trans (x.rx b b1)) with k | ⟨z, hz, zc, zl⟩
  · left; unfold CollE; rw [x.sid a a1.1, x.sid b b1.1]; exact k
  · right
    refine ⟨z, x.isL hz, ?_, by rw [x.lx hz.1]; exact zl⟩
    unfold CollE; rw [x.sid a a1.1, x.sid z hz.1]; exact zc

/-- The invariant about overlapping pieces, for right events. -/
theorem CollB.right (h : CollB c S) (s : Step c S S' e) (hr : ¬ isLeft e = true) : CollB c S' := by
  have old : ∀ {y}, IsL S' y → y ∉ S'.queue → Popped S y := by
    intro y hy hq
    rcases s.popped.mp ⟨hy, hq⟩ with k | ⟨_, k⟩
    · exact k
    · exact absurd (isLeft_iff.mpr k.2) hr
  intro a b ha hb hqa hqb hc hl
  obtain ⟨a1, a2⟩ := old ha hqa
  obtain ⟨b1, b2⟩ := old hb hqb
  unfold CollE at hc
  rw [s.sid a a1.1, s.sid b b1.1] at hc
  rw [s.lx a1.1, s.lx b1.1] at hl
  rw [s.sid b b1.1]
  exact (s.rx a a1).trans (h a b a1 b1 a2 b2 hc hl)

theorem Ann.right {T : Bool} {q : ℕ → ℚ → Bool} {ok : ℚ → Prop} {oth oth' : ℕ → Bool} (a : Ann c T q ok S oth)
    (h : Inv0 c S p) (s : Step c S S' e) (hr : ¬ isLeft e = true) (ho : ∀ x, x % 2 = 0 → oth' x = oth x) :
    Ann c T q ok S' oth' := by
  constructor
  · intro x hx hT hok
    rcases s.popped.mp hx with k | ⟨_, k⟩
    · rw [ho x hx.1.2]
      rw [s.sid x k.1.1] at hT ⊢
      rw [s.lx k.1.1] at hok ⊢
      rcases a.val x k hT hok with m | m
      · exact Or.inl m
      · right
        refine s.pending k.1.1 ?_ h.qnd h.qlt
        obtain ⟨z, hz, zL, zc⟩ := m
        refine ⟨z, (h.qnd.mem_erase_iff).mpr ⟨?_, hz⟩, zL, zc⟩
        rintro rfl
        exact hr (isLeft_iff.mpr zL.2)
    · exact absurd (isLeft_iff.mpr k.2) hr
  · intro x hx hq
    rw [ho x hx]
    refine a.fresh x hx ?_
    by_cases hc : x < cnt S
    · rcases hq with k | k
      · exact Or.inl (s.queued hc k).1
      · have := s.cnt; omega
    · exact Or.inr (not_lt.mp hc)

theorem OvI.right {ov ov' : ℕ → Bool} (o : OvI c S ov) (s : Step c S S' e) (hr : ¬ isLeft e = true)
    (h1 : ∀ x, x % 2 = 0 → ov x = true → ov' x = true)
    (h2 : ∀ x, x % 2 = 0 → ov' x = true → ov x = true ∨ (Popped S x ∧ ∃ y, Popped S y ∧ y ≠ x ∧ Ret c S x y)) :
    OvI c S' ov' ∧ ∀ x, x % 2 = 0 → ov' x = ov x := by
  have same : ∀ x, x % 2 = 0 → ov' x = ov x := by
    intro x hx
    rw [Bool.eq_iff_iff]
    constructor
    · intro k
      rcases h2 x hx k with m | ⟨m1, m2⟩
      · exact m
      · exact (o.val x m1).mpr m2
    · exact h1 x hx
  refine ⟨⟨fun x hx => ?_, fun x hx hq => ?_⟩, same⟩
  · have pop : ∀ y, Popped S' y ↔ Popped S y := by
      intro y
      rw [s.popped]
      constructor
      · rintro (k | ⟨_, k⟩)
        · exact k
        · exact absurd (isLeft_iff.mpr k.2) hr
      · exact Or.inl
    rw [same x hx.1.2, o.val x ((pop x).mp hx)]
    refine exists_congr fun y => ?_
    rw [pop]
    constructor
    · rintro ⟨k1, k2, k3⟩
      exact ⟨k1, k2, (s.ret ((pop x).mp hx).1.1 k1.1.1).mpr k3⟩
    · rintro ⟨k1, k2, k3⟩
      exact ⟨k1, k2, (s.ret ((pop x).mp hx).1.1 k1.1.1).mp k3⟩
  · rw [same x hx]
    refine o.fresh x hx ?_
    by_cases hc : x < cnt S
    · rcases hq with k | k
      · exact Or.inl (s.queued hc k).1
      · have := s.cnt; omega
    · exact Or.inr (not_lt.mp hc)

end

section
variable {S : Lin} {p : Point} {e : ℕ} {A B : List ℕ} {S2 S3 : Lin}

/-- A popped event which overlaps the new one and starts with it is on the sweep line. -/
theorem Inv.ret_mem (h : Inv c S p) (hp : lx c S e = c.X p) {y : ℕ} (hy : Popped S y) (hr : Ret c S y e) :
    y ∈ S.sweepLine := by
  refine h.mem_of hy.1 hy.2 ?_
  rw [← hp, ← hr.2]
  exact h.wf.lr y hy.1

theorem LeftParts.adjacent (g : c.Good) (h : Inv c S p) (l : Least c S e) (hp : lx c S e = c.X p)
    (hl : isLeft e = true) (lp : LeftParts c S p e A B S2 S3) {y : ℕ} (hy : Popped S y) (hr : Ret c S y e) :
    A.getLast? = some y ∨ B.head? = some y := by
  refine adjacent_of_coll (h.added_sorted g l hp hl lp.sweep lp.inv1) ?_ ?_ hr.1
  · have := h.ret_mem hp hy hr
    rw [lp.sweep] at this
    simp only [List.mem_append, List.mem_cons] at this ⊢
    tauto
  · rintro rfl; exact hy.2 l.mem

theorem LeftParts.popA (h : Inv c S p) (lp : LeftParts c S p e A B S2 S3) {y : ℕ} (hy : y ∈ A ∨ y ∈ B) :
    Popped S y := by
  have : y ∈ S.sweepLine := by rw [lp.sweep]; simpa using hy
  exact ⟨h.isL this, ((h.tmem y).mp this).2.1⟩

theorem CollB.left (g : c.Good) (h : Inv c S p) (l : Least c S e) (hp : lx c S e = c.X p)
    (hl : isLeft e = true) (lp : LeftParts c S p e A B S2 S3) (s : Step c S S3 e) (hcb : CollB c S) :
    CollB c S3 := by
  have he : IsL S e := ⟨h.qlt e l.mem, isLeft_iff.mp hl⟩
  have he1 : IsL (insertedAt S e A B) e := he
  have he2 : IsL S2 e := lp.ext1.isL he1
  have key : ∀ y, Popped S y → Ret c S y e → rx c S3 y ≤ c.X (c.B (S.sid e)) ∧ rx c S3 e ≤ c.X (c.B (S.sid y)) := by
    intro y hy hr
    have hy1 : IsL (insertedAt S e A B) y := hy.1
    have hy2 : IsL S2 y := lp.ext1.isL hy1
    rcases lp.adjacent g h l hp hl hy hr with k | k
    · have := lp.endB y k hr
      have e1 := lp.inv3.wf.inB e (lp.ext2.isL he2)
      have e2 := lp.inv3.wf.inB y (lp.ext2.isL hy2)
      rw [s.sid e he.1] at e1
      rw [s.sid y hy.1.1] at e2
      exact ⟨this ▸ e1, this ▸ e2⟩
    · have := lp.endA y k hr.symm
      have e1 := lp.inv2.wf.inB e he2
      have e2 := lp.inv2.wf.inB y hy2
      have f1 : S2.sid e = S.sid e := lp.ext1.sid e he.1
      have f2 : S2.sid y = S.sid y := lp.ext1.sid y hy.1.1
      rw [f1] at e1
      rw [f2] at e2
      exact ⟨(lp.ext2.rx y hy2).trans (this ▸ e1), (lp.ext2.rx e he2).trans (this ▸ e2)⟩
  intro a b ha hb hqa hqb hc hla
  have a1 := s.popped.mp ⟨ha, hqa⟩
  have b1 := s.popped.mp ⟨hb, hqb⟩
  have la : IsL S a := a1.elim (fun k => k.1) (fun k => k.1 ▸ k.2)
  have lb : IsL S b := b1.elim (fun k => k.1) (fun k => k.1 ▸ k.2)
  have hr : Ret c S a b := (s.ret la.1 lb.1).mp ⟨hc, hla⟩
  rw [s.sid b lb.1]
  rcases a1 with a1 | ⟨rfl, _⟩
  · rcases b1 with b1 | ⟨rfl, _⟩
    · exact (s.rx a la).trans (hcb a b la lb a1.2 b1.2 hr.1 hr.2)
    · exact (key a a1 hr).1
  · rcases b1 with b1 | ⟨rfl, _⟩
    · exact (key b b1 hr.symm).2
    · have := lp.inv3.wf.inB b hb
      rw [s.sid b lb.1] at this
      exact this

theorem OvI.left {inte oth ov oth' ov' : ℕ → Bool} (g : c.Good) (h : Inv c S p) (l : Least c S e)
    (hp : lx c S e = c.X p) (hl : isLeft e = true) (lp : LeftParts c S p e A B S2 S3) (s : Step c S S3 e)
    (ls : LeftStep c S e A B inte oth ov oth' ov') (o : OvI c S ov) : OvI c S3 ov' := by
  have he : IsL S e := ⟨h.qlt e l.mem, isLeft_iff.mp hl⟩
  have hA : ∀ {y}, A.getLast? = some y → Popped S y := fun k => lp.popA h (Or.inl (List.mem_of_getLast? k))
  have hB : ∀ {y}, B.head? = some y → Popped S y := fun k => lp.popA h (Or.inr (List.mem_of_mem_head? k))
  have pe : Popped S3 e := s.popped.mpr (Or.inr ⟨rfl, he⟩)
  constructor
  · intro x hx
    rw [ls.ov x hx.1.2]
    rcases s.popped.mp hx with hxS | ⟨rfl, _⟩
    · have hxe : x ≠ e := by rintro rfl; exact hxS.2 l.mem
      constructor
      · rintro (k | ⟨k, _⟩ | ⟨k1, k2⟩ | ⟨k1, k2⟩)
        · obtain ⟨y, hy, hyx, hr⟩ := (o.val x hxS).mp k
          exact ⟨y, s.popped.mpr (Or.inl hy), hyx, (s.ret hxS.1.1 hy.1.1).mpr hr⟩
        · exact absurd k hxe
        · exact ⟨e, pe, hxe.symm, (s.ret hxS.1.1 he.1).mpr k2.symm⟩
        · exact ⟨e, pe, hxe.symm, (s.ret hxS.1.1 he.1).mpr k2⟩
      · rintro ⟨y, hy, hyx, hr⟩
        rcases s.popped.mp hy with hyS | ⟨rfl, _⟩
        · exact Or.inl ((o.val x hxS).mpr ⟨y, hyS, hyx, (s.ret hxS.1.1 hyS.1.1).mp hr⟩)
        · have hr' := (s.ret hxS.1.1 he.1).mp hr
          rcases lp.adjacent g h l hp hl hxS hr' with k | k
          · exact Or.inr (Or.inr (Or.inr ⟨k, hr'⟩))
          · exact Or.inr (Or.inr (Or.inl ⟨k, hr'.symm⟩))
    · constructor
      · rintro (k | ⟨_, ⟨a, k1, k2⟩ | ⟨b, k1, k2⟩⟩ | ⟨k1, _⟩ | ⟨k1, _⟩)
        · rw [o.fresh x he.2 (Or.inl l.mem)] at k; exact absurd k (by simp)
        · have := hB k1
          refine ⟨a, s.popped.mpr (Or.inl this), ?_, (s.ret he.1 this.1.1).mpr k2⟩
          rintro rfl; exact this.2 l.mem
        · have := hA k1
          refine ⟨b, s.popped.mpr (Or.inl this), ?_, (s.ret he.1 this.1.1).mpr k2.symm⟩
          rintro rfl; exact this.2 l.mem
        · exact absurd l.mem (hB k1).2
        · exact absurd l.mem (hA k1).2
      · rintro ⟨y, hy, hyx, hr⟩
        have hyS : Popped S y := (s.popped.mp hy).resolve_right (fun k => hyx k.1)
        have hr' := (s.ret he.1 hyS.1.1).mp hr
        rcases lp.adjacent g h l hp hl hyS hr'.symm with k | k
        · exact Or.inr (Or.inl ⟨rfl, Or.inr ⟨y, k, hr'.symm⟩⟩)
        · exact Or.inr (Or.inl ⟨rfl, Or.inl ⟨y, k, hr'⟩⟩)
  · intro x hx hq
    rw [Bool.eq_false_iff]
    intro k
    have np : ¬ Popped S x ∧ x ≠ e := by
      rcases hq with m | m
      · refine ⟨fun z => (s.popped.mpr (Or.inl z)).2 m, ?_⟩
        rintro rfl; exact s.gone m
      · have := s.cnt
        refine ⟨fun z => ?_, ?_⟩
        · have := z.1.1; omega
        · rintro rfl; have := he.1; omega
    rcases (ls.ov x hx).mp k with k | ⟨k, _⟩ | ⟨k1, _⟩ | ⟨k1, _⟩
    · have : ov x = false := by
        refine o.fresh x hx ?_
        by_cases hc : x < cnt S
        · rcases hq with k | k
          · exact Or.inl (s.queued hc k).1
          · have := s.cnt; omega
        · exact Or.inr (not_lt.mp hc)
      rw [this] at k; exact absurd k (by simp)
    · exact np.2 k
    · exact np.1 (hB k1)
    · exact np.1 (hA k1)

theorem Ann.left {T : Bool} {inte oth ov oth' ov' : ℕ → Bool} {q : ℕ → ℚ → Bool} {ok : ℚ → Prop}
    (g : c.Good) (h : Inv c S p) (l : Least c S e)
    (hp : lx c S e = c.X p) (hl : isLeft e = true) (hpass : Pass c S p) (hcb : CollB c S)
    (lp : LeftParts c S p e A B S2 S3) (s : Step c S S3 e)
    (ls : LeftStep c S e A B inte oth ov oth' ov') (lab : Lab c T inte q ok) (hok : ok (c.X p))
    (hdown : ∀ i < c.N, opB c i = T → ∀ t t', c.X (c.A i) ≤ t → t ≤ t' → ok t' → ok t)
    (a : Ann c T q ok S oth) : Ann c T q ok S3 oth' := by
  obtain ⟨he, hr, heT, hop⟩ := h.leftBasic l hp hl
  have hA : ∀ {y}, A.getLast? = some y → Popped S y := fun k => lp.popA h (Or.inl (List.mem_of_getLast? k))
  have hB : ∀ {y}, B.head? = some y → Popped S y := fun k => lp.popA h (Or.inr (List.mem_of_mem_head? k))
  have srt := h.added_sorted g l hp hl lp.sweep lp.inv1
  have hval : ∀ b ∈ S.sweepLine, opB c (S.sid b) = T → ok (lx c S b) ∧
      (oth b = q (S.sid b) (lx c S b) ∨ Pending c S b) := by
    intro b hb hbT
    have hbL := h.isL hb
    have okb := hdown _ (h.wf.sidLt b hbL) hbT _ _ (h.wf.inA b hbL) (h.lx_le hb) hok
    exact ⟨okb, a.val b ⟨hbL, ((h.tmem b).mp hb).2.1⟩ hbT okb⟩
  have pv := fun {A' B' : List ℕ} {x : ℕ} (hx : A ++ e :: B = A' ++ x :: B') hA' hxT hxp hxk =>
    h.pred_value g l hp hl hpass hcb lp.sweep lp.inv1 lab (oth := oth) hok hval (A' := A') (B' := B') (x := x)
      hx hA' hxT hxp hxk
  constructor
  · intro x hx hT hokx
    rcases s.popped.mp hx with hxS | ⟨rfl, _⟩
    · have hxe : x ≠ e := by rintro rfl; exact hxS.2 l.mem
      rw [s.sid x hxS.1.1] at hT ⊢
      rw [s.lx hxS.1.1] at hokx ⊢
      have pend : ∀ {v : Bool}, (q (S.sid x) (c.X p) = v ∨ Pending c { S with queue := S.queue.erase e } x) →
          lx c S x = c.X p → oth' x = v → oth' x = q (S.sid x) (lx c S x) ∨ Pending c S3 x := by
        intro v hv e1 e2
        rcases hv with k | k
        · left; rw [e2, e1, k]
        · right; exact s.pending hxS.1.1 k h.qnd h.qlt
      by_cases ca : B.head? = some x ∧ Ret c S e x
      · obtain ⟨B', rfl⟩ : ∃ B', B = x :: B' := by
          obtain ⟨ca, _⟩ := ca
          cases B with
          | nil => simp at ca
          | cons y B' => rw [List.head?_cons, Option.some.injEq] at ca; subst ca; exact ⟨B', rfl⟩
        have hxp : lx c S x = c.X p := by rw [← ca.2.2, hp]
        refine pend (pv (A' := A ++ [e]) (B' := B') (by simp) ?_ hT hxp ca.2.1.1.ge) hxp ?_
        · intro y hy ho
          rw [List.getLast?_concat, Option.some.injEq] at hy
          subst hy
          exfalso
          refine hop x ?_ ca.2.1.symm ?_
          · rw [lp.sweep]; simp
          · unfold SameOp; unfold opB at ho; rwa [decide_eq_decide] at ho
        · rw [ls.othA x ca.1 ca.2, List.getLast?_concat]
      · by_cases cb : A.getLast? = some x ∧ Ret c S x e
        · have hxp : lx c S x = c.X p := by rw [cb.2.2, hp]
          have hxF : S.sid x < c.F := by
            have mx := List.mem_of_getLast? cb.1
            have := (List.pairwise_append.mp srt).2.2 x mx e (by simp)
            rcases this with k | k
            · exact absurd cb.2.1 (aboveR_not_coll k)
            · exact k.2.1
          rcases ls.othB x cb.1 cb.2 with k | ⟨A', bb, rfl, k⟩
          · rw [k]
            rcases a.val x hxS hT hokx with m | ⟨z, _, _, _, _, _, m⟩
            · exact Or.inl m
            · exact absurd hxF m
          · refine pend (pv (A' := A' ++ [bb]) (B' := e :: B) (by simp) ?_ hT hxp cb.2.1.1.le) hxp ?_
            · intro y hy _
              rw [List.getLast?_concat, Option.some.injEq] at hy
              subst hy
              rw [lp.sweep]; simp
            · rw [k, List.getLast?_concat]
        · rw [ls.othX x hxS.1.2 hxe ca cb]
          rcases a.val x hxS hT hokx with m | ⟨z, zq, zL, zc, zl, z1, z2⟩
          · exact Or.inl m
          · right
            have hze : z ≠ e := by
              rintro rfl
              have hr' : Ret c S x z := ⟨Ctx.Coll.symm zc, zl.symm⟩
              rcases lp.adjacent g h l hp hl hxS hr' with k | k
              · exact cb ⟨k, hr'⟩
              · exact ca ⟨k, hr'.symm⟩
            exact s.pending hxS.1.1 ⟨z, (h.qnd.mem_erase_iff).mpr ⟨hze, zq⟩, zL, zc, zl, z1, z2⟩ h.qnd h.qlt
    · rw [s.sid x he.1] at hT ⊢
      rw [s.lx he.1, hp]
      rcases pv (A' := A) (B' := B) rfl (fun y hy _ => by
          rw [lp.sweep]; exact List.mem_append_left _ (List.mem_of_getLast? hy)) hT hp le_rfl with k | k
      · left; rw [ls.othE, k]
      · right; exact s.pending he.1 k h.qnd h.qlt
  · intro x hx hq
    have np : ¬ Popped S x ∧ x ≠ e := by
      rcases hq with m | m
      · refine ⟨fun z => (s.popped.mpr (Or.inl z)).2 m, ?_⟩
        rintro rfl; exact s.gone m
      · have := s.cnt
        refine ⟨fun z => ?_, ?_⟩
        · have := z.1.1; omega
        · rintro rfl; have := he.1; omega
    rw [ls.othX x hx np.2 (fun z => np.1 (hB z.1)) (fun z => np.1 (hA z.1))]
    refine a.fresh x hx ?_
    by_cases hc : x < cnt S
    · rcases hq with k | k
      · exact Or.inl (s.queued hc k).1
      · have := s.cnt; omega
    · exact Or.inr (not_lt.mp hc)

end

end Rene.Sweep
