import Verif.Lemmas.Sweep.RelStep
import Verif.Lemmas.Sweep.Result

/-! The group of the events at the current point, in the order of popping. -/

namespace Rene.Sweep
open Rene Spec

variable {c : Ctx} {S : Lin} {p : Point} {e : ℕ} {group : List ℕ}

/-- A left event waiting at the point. -/
def Waiting (S : Lin) (p : Point) (y : ℕ) : Prop := y ∈ S.queue ∧ isLeft y = true ∧ S.start y = p

/-- The group of the popped events at the current point. -/
structure GInv (c : Ctx) (S : Lin) (p : Point) (group : List ℕ) : Prop where
  inv : Inv c S p
  nd : group.Nodup
  mem : ∀ x, x ∈ group ↔ x < cnt S ∧ x ∉ S.queue ∧ S.start x = p
  quiet : ∀ x ∈ group, ∀ y ∈ group, x ≠ y → isLeft x = true → isLeft y = true → ∀ z ∈ S.queue, S.start z = p →
    isLeft z = true
  eq : ∀ x ∈ group, ∀ y ∈ group, isLeft x = true → isLeft y = true → CollE c S x y → rx c S x = rx c S y
  ord : ∀ l1 rest, group.filter isLeft = l1 :: rest →
    rest.Pairwise (fun x y => c.K (S.sid x) ≤ c.K (S.sid y)) ∧
    (∀ x ∈ rest, ∀ y, Waiting S p y → c.K (S.sid x) ≤ c.K (S.sid y)) ∧
    ∀ y, y ∈ rest ∨ Waiting S p y → c.K (S.sid l1) ≤ c.K (S.sid y) ∨ 2 * c.N ≤ y

theorem GInv.new (h : Inv c S p) (hl : ∀ x < cnt S, x ∉ S.queue → lx c S x < c.X p) : GInv c S p [] := by
  refine ⟨h, List.nodup_nil, fun x => ?_, by simp, by simp, by simp⟩
  simp only [List.not_mem_nil, false_iff, not_and]
  intro h1 h2 h3
  have := hl x h1 h2
  unfold lx at this
  rw [h3] at this
  exact lt_irrefl _ this

/-- Lefts of the group are on the sweep line. -/
theorem GInv.left_mem (h : GInv c S p group) {x : ℕ} (hx : x ∈ group) (hl : isLeft x = true) :
    x ∈ S.sweepLine ∧ IsL S x ∧ lx c S x = c.X p := by
  obtain ⟨k1, k2, k3⟩ := (h.mem x).mp hx
  have hL : IsL S x := ⟨k1, isLeft_iff.mp hl⟩
  have e1 : lx c S x = c.X p := by unfold lx; rw [k3]
  exact ⟨h.inv.mem_of hL k2 (by rw [← e1]; exact h.inv.wf.lr x hL), hL, e1⟩

/-- When another left event is popped at the point, nothing passes through it. -/
theorem GInv.none_through (h : GInv c S p group) (l : Least c S e) (hp : S.start e = p)
    (hl : isLeft e = true) {x y : ℕ} (hx : x ∈ group) (hxl : isLeft x = true) (hy : y ∈ S.sweepLine)
    (hon : c.On (S.sid y) p) : ¬ lx c S y < c.X p := by
  intro hlt
  have hpx : lx c S e = c.X p := by unfold lx; rw [hp]
  obtain ⟨he, hr, heT, hop⟩ := h.inv.leftBasic l hpx hl
  obtain ⟨hxT, hxL, hxp⟩ := h.left_mem hx hxl
  have hxon : c.f (S.sid x) (c.X p) = p.y := by
    have := h.inv.wf.onL x hxL
    rw [((h.mem x).mp hx).2.2] at this
    exact this.symm
  obtain ⟨a, ha, b, hb, k1, k2, k3, k4, k5⟩ := h.inv.walk (t := c.X p) (w := p.y) (fun e he => h.inv.lx_le he)
    (fun e he => h.inv.le_rx he) (fun z => lx c S z < c.X p) hy hxT hon.symm hxon hlt (by rw [hxp]; exact lt_irrefl _)
  have hb' : lx c S b = c.X p := le_antisymm (h.inv.lx_le hb) (not_lt.mp k4)
  have ra := hr a ha
  by_cases hc : CollE c S a b
  · rcases k5.1 hc with (q | q) | ⟨q, -⟩
    · linarith
    · have := h.inv.wf.lr b (h.inv.isL hb)
      have := hr b hb
      linarith
    · linarith
  · exact (k5.2 hc (c.X p) (k1.trans k2.symm) k3.le ra.le hb'.le (hr b hb).le).1 ⟨k3, ra⟩

theorem GInv.step (g : c.Good) (h : GInv c S p group) (hpop : S.popEvent = some e) (hp : S.start e = p) :
    GInv c (S.process e) p (group ++ [e]) ∧ Step c S (S.process e) e := by
  obtain ⟨h1, h2, s, -⟩ := h.inv.step g hpop
  have l := least_of_pop g h.inv.wf h.inv.qlt hpop
  have he := h.inv.qlt e l.mem
  rw [hp] at h2
  have hpx : lx c S e = c.X p := by unfold lx; rw [hp]
  refine ⟨?_, s⟩
  have heg : e ∉ group := fun z => ((h.mem e).mp z).2.1 l.mem
  -- new events
  have hnewq : ∀ {z}, z ∈ (S.process e).queue → (z ∈ S.queue ∧ z < cnt S ∧ z ≠ e) ∨ (cnt S ≤ z ∧ z < cnt (S.process e)) := by
    intro z hz
    by_cases k : z < cnt S
    · have hze : z ≠ e := by rintro rfl; exact s.gone hz
      exact Or.inl ⟨(s.queue z k hze).mp hz, k, hze⟩
    · exact Or.inr ⟨not_lt.mp k, h2.qlt z hz⟩
  -- no new events at the point when there was a left event
  have hnone : isLeft e = true → ∀ x ∈ group, isLeft x = true → ∀ z, cnt S ≤ z → z < cnt (S.process e) →
      (S.process e).start z ≠ p := by
    intro hl x hx hxl z hz hz' hzp
    obtain ⟨y, hy, hon, hint⟩ := (h.inv.leftChg g l hpx hl).ins z hz hz'
    have hlz : lx c (S.process e) z = c.X p := by unfold lx; rw [hzp]
    rw [hlz] at hint
    rw [hzp] at hon
    rcases hy with rfl | hy
    · have := hint.1; rw [hpx] at this; exact lt_irrefl _ this
    · exact h.none_through l hp hl hx hxl hy hon hint.1
  have hold : ∀ {x}, x ∈ group → x < cnt S := fun hx => ((h.mem _).mp hx).1
  have hwait : ∀ {y}, Waiting (S.process e) p y → (Waiting S p y ∧ y ≠ e ∧ y < cnt S) ∨
      (cnt S ≤ y ∧ y < cnt (S.process e)) := by
    rintro y ⟨k1, k2, k3⟩
    rcases hnewq k1 with ⟨q1, q2, q3⟩ | q
    · left; exact ⟨⟨q1, k2, by rw [← s.start y q2]; exact k3⟩, q3, q2⟩
    · exact Or.inr q
  constructor
  · exact h2
  · rw [List.nodup_append]
    refine ⟨h.nd, by simp, fun x hx y hy => ?_⟩
    rw [List.mem_singleton] at hy
    subst hy
    rintro rfl
    exact heg hx
  · intro x
    rw [List.mem_append, List.mem_singleton, h.mem]
    constructor
    · rintro (⟨k1, k2, k3⟩ | rfl)
      · have hxe : x ≠ e := by rintro rfl; exact k2 l.mem
        exact ⟨lt_of_lt_of_le k1 s.cnt, fun z => k2 ((s.queue x k1 hxe).mp z), by rw [s.start x k1]; exact k3⟩
      · exact ⟨lt_of_lt_of_le he s.cnt, s.gone, by rw [s.start x he]; exact hp⟩
    · rintro ⟨k1, k2, k3⟩
      by_cases hxe : x = e
      · exact Or.inr hxe
      · left
        have hx : x < cnt S := by
          by_contra k
          exact k2 (s.new x k1 (not_lt.mp k))
        exact ⟨hx, fun z => k2 ((s.queue x hx hxe).mpr z), by rw [← s.start x hx]; exact k3⟩
  · intro x hx y hy hxy hxl hyl z hz hzp
    by_cases hl : isLeft e = true
    · -- another left
      obtain ⟨w, hw, hwl⟩ : ∃ w ∈ group, isLeft w = true := by
        rw [List.mem_append, List.mem_singleton] at hx hy
        rcases hx with hx | rfl
        · exact ⟨x, hx, hxl⟩
        · rcases hy with hy | rfl
          · exact ⟨y, hy, hyl⟩
          · exact absurd rfl hxy
      rcases hnewq hz with ⟨k1, k2, k3⟩ | ⟨k1, k2⟩
      · exact l.right hl z k1 (by rw [hpx]; unfold lx; rw [← s.start z k2, hzp])
      · exact absurd hzp (hnone hl w hw hwl z k1 k2)
    · rw [List.mem_append, List.mem_singleton] at hx hy
      have hxe : x ∈ group := by
        rcases hx with hx | rfl
        · exact hx
        · exact absurd hxl hl
      have hye : y ∈ group := by
        rcases hy with hy | rfl
        · exact hy
        · exact absurd hyl hl
      exact absurd (h.quiet x hxe y hye hxy hxl hyl e l.mem hp) hl
  · intro x hx y hy hxl hyl hc
    rw [List.mem_append, List.mem_singleton] at hx hy
    by_cases hxy : x = y
    · rw [hxy]
    by_cases hl : isLeft e = true
    · have L := h.inv.leftChg g l hpx hl
      obtain ⟨heL, hr, heT, hop⟩ := h.inv.leftBasic l hpx hl
      -- an old piece at the point is not divided
      have key : ∀ {x}, x ∈ group → isLeft x = true → ¬ CollE c S x e → rx c (S.process e) x = rx c S x := by
        intro v hv hvl hnc
        by_contra k
        obtain ⟨hvT, hvL, hvp⟩ := h.left_mem hv hvl
        have hve : v ≠ e := fun z => heg (z ▸ hv)
        obtain ⟨u, hu, t, q1, q2, q3, q4⟩ := L.chg v hvL k
        rcases hu with ⟨-, hu⟩ | ⟨rfl, -⟩
        · exact hve hu
        · have f0 : c.f (S.sid v) (c.X p) = c.f (S.sid u) (c.X p) := by
            have a1 := h.inv.wf.onL v hvL
            have a2 := h.inv.wf.onL u heL
            rw [((h.mem v).mp hv).2.2] at a1
            rw [hp] at a2
            exact a1.symm.trans a2
          have := q1.1
          rw [hvp] at this
          exact hnc (Ctx.coll_of_two this.ne f0 q2)
      have hsid : ∀ {x}, x < cnt S → (S.process e).sid x = S.sid x := fun hx => s.sid _ hx
      have twin : ∀ {x}, x ∈ group → isLeft x = true → CollE c S x e →
          rx c (S.process e) x = rx c (S.process e) e := by
        intro x hx hxl hc
        obtain ⟨hxT, hxL, hxp⟩ := h.left_mem hx hxl
        exact L.twin x hxT hc (by rw [hxp, hpx])
      rcases hx with hx | rfl
      · rcases hy with hy | rfl
        · have hc' : CollE c S x y := by unfold CollE at *; rw [← hsid (hold hx), ← hsid (hold hy)]; exact hc
          by_cases hce : CollE c S x e
          · rw [twin hx hxl hce, twin hy hyl (Ctx.Coll.trans (Ctx.Coll.symm hc') hce)]
          · rw [key hx hxl hce, key hy hyl (fun z => hce (Ctx.Coll.trans hc' z))]
            exact h.eq x hx y hy hxl hyl hc'
        · have hc' : CollE c S x y := by unfold CollE at *; rw [← hsid (hold hx), ← hsid he]; exact hc
          exact twin hx hxl hc'
      · rcases hy with hy | rfl
        · have hc' : CollE c S y x := by
            unfold CollE at *; rw [← hsid (hold hy), ← hsid he]; exact Ctx.Coll.symm hc
          exact (twin hy hyl hc').symm
        · rfl
    · have hxe : x ∈ group := by
        rcases hx with hx | rfl
        · exact hx
        · exact absurd hxl hl
      have hye : y ∈ group := by
        rcases hy with hy | rfl
        · exact hy
        · exact absurd hyl hl
      exact absurd (h.quiet x hxe y hye hxy hxl hyl e l.mem hp) hl
  · intro l1 rest hlr
    have hbig := h.inv.wf.big
    have mg : ∀ {x}, x ∈ group.filter isLeft → x ∈ group ∧ isLeft x = true := fun hx => List.mem_filter.mp hx
    have sidg : ∀ {x}, x ∈ group.filter isLeft → (S.process e).sid x = S.sid x :=
      fun hx => s.sid _ (hold (mg hx).1)
    by_cases hl : isLeft e = true
    · rw [List.filter_append, List.filter_cons_of_pos hl, List.filter_nil] at hlr
      have wle : ∀ {y}, Waiting S p y → c.K (S.sid e) ≤ c.K (S.sid y) := by
        rintro y ⟨k1, k2, k3⟩
        have := l.slopeL hl y k1 k2 (by rw [hpx]; unfold lx; rw [k3])
        rw [slope_left hl, slope_left k2] at this
        exact this
      have ew : Waiting S p e := ⟨l.mem, hl, hp⟩
      cases hgl : group.filter isLeft with
      | nil =>
        rw [hgl] at hlr
        simp only [List.nil_append, List.cons.injEq] at hlr
        obtain ⟨rfl, rfl⟩ := hlr
        refine ⟨List.Pairwise.nil, by simp, fun y hy => ?_⟩
        rcases hy with hy | hy
        · simp at hy
        · rcases hwait hy with ⟨k1, k2, k3⟩ | ⟨k1, -⟩
          · left; rw [s.sid _ he, s.sid y k3]; exact wle k1
          · right; omega
      | cons m1 mrest =>
        obtain ⟨o1, o2, o3⟩ := h.ord m1 mrest hgl
        rw [hgl] at hlr sidg mg
        simp only [List.cons_append, List.cons.injEq] at hlr
        obtain ⟨rfl, rfl⟩ := hlr
        have hw1 : m1 ∈ group ∧ isLeft m1 = true := mg (by simp)
        have hold' : ∀ {y}, Waiting (S.process e) p y → Waiting S p y ∧ y < cnt S := by
          intro y hy
          rcases hwait hy with ⟨k1, k2, k3⟩ | ⟨k1, k2⟩
          · exact ⟨k1, k3⟩
          · exact absurd hy.2.2 (hnone hl m1 hw1.1 hw1.2 y k1 k2)
        refine ⟨?_, fun x hx y hy => ?_, fun y hy => ?_⟩
        · rw [List.pairwise_append]
          refine ⟨?_, by simp, fun x hx y hy => ?_⟩
          · refine List.Pairwise.imp_of_mem ?_ o1
            intro a b ha hb hab
            rw [sidg (List.mem_cons_of_mem _ ha), sidg (List.mem_cons_of_mem _ hb)]
            exact hab
          · rw [List.mem_singleton] at hy
            subst hy
            rw [sidg (List.mem_cons_of_mem _ hx), s.sid _ he]
            exact o2 x hx y ew
        · obtain ⟨k1, k2⟩ := hold' hy
          rw [s.sid y k2]
          rcases List.mem_append.mp hx with hx | hx
          · rw [sidg (List.mem_cons_of_mem _ hx)]; exact o2 x hx y k1
          · rw [List.mem_singleton] at hx
            subst hx
            rw [s.sid _ he]; exact wle k1
        · rw [sidg (by simp)]
          rcases hy with hy | hy
          · rcases List.mem_append.mp hy with hy | hy
            · rw [sidg (List.mem_cons_of_mem _ hy)]; exact o3 y (Or.inl hy)
            · rw [List.mem_singleton] at hy
              subst hy
              rw [s.sid _ he]; exact o3 y (Or.inr ew)
          · obtain ⟨k1, k2⟩ := hold' hy
            rw [s.sid y k2]
            exact o3 y (Or.inr k1)
    · rw [List.filter_append, List.filter_cons_of_neg hl, List.filter_nil, List.append_nil] at hlr
      obtain ⟨o1, o2, o3⟩ := h.ord l1 rest hlr
      rw [hlr] at sidg mg
      have hrest : rest = [] := by
        cases rest with
        | nil => rfl
        | cons m2 r2 =>
          exfalso
          have nd := h.nd.filter (p := isLeft)
          rw [hlr, List.nodup_cons] at nd
          have hne : l1 ≠ m2 := by rintro rfl; exact nd.1 (by simp)
          have a1 := mg (x := l1) (by simp)
          have a2 := mg (x := m2) (by simp)
          exact hl (h.quiet l1 a1.1 m2 a2.1 hne a1.2 a2.2 e l.mem hp)
      subst hrest
      refine ⟨List.Pairwise.nil, by simp, fun y hy => ?_⟩
      rcases hy with hy | hy
      · simp at hy
      · rcases hwait hy with ⟨k1, k2, k3⟩ | ⟨k1, -⟩
        · rw [sidg (by simp), s.sid y k3]; exact o3 y (Or.inr k1)
        · right; omega

end Rene.Sweep
