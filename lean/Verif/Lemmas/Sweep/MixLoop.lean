import Verif.Lemmas.Sweep.MixProc

/-! The whole loop of the mixed engine. -/

namespace Rene.Sweep
open Rene Spec

variable {c : Ctx}

section
variable {S : Lin} {p : Point} {e : ℕ} {A B : List ℕ} {S2 S3 : Lin}

/-- Where no values are asked for, an iteration for a left event keeps the other ones. -/
theorem Ann.left_skip {T : Bool} {inte oth ov oth' ov' : ℕ → Bool} {q : ℕ → ℚ → Bool} {ok : ℚ → Prop}
    (g : c.Good) (h : Inv c S p) (l : Least c S e)
    (hp : lx c S e = c.X p) (hl : isLeft e = true)
    (lp : LeftParts c S p e A B S2 S3) (s : Step c S S3 e)
    (ls : LeftStep c S e A B inte oth ov oth' ov') (hok : ¬ ok (c.X p))
    (a : Ann c T q ok S oth) : Ann c T q ok S3 oth' := by
  obtain ⟨he, hr, heT, hop⟩ := h.leftBasic l hp hl
  have hA : ∀ {y}, A.getLast? = some y → Popped S y := fun k => lp.popA h (Or.inl (List.mem_of_getLast? k))
  have hB : ∀ {y}, B.head? = some y → Popped S y := fun k => lp.popA h (Or.inr (List.mem_of_mem_head? k))
  constructor
  · intro x hx hT hokx
    rcases s.popped.mp hx with hxS | ⟨rfl, _⟩
    · have hxe : x ≠ e := by rintro rfl; exact hxS.2 l.mem
      rw [s.sid x hxS.1.1] at hT ⊢
      rw [s.lx hxS.1.1] at hokx ⊢
      have hne : lx c S x ≠ c.X p := fun z => hok (z ▸ hokx)
      have ca : ¬ (B.head? = some x ∧ Ret c S e x) := fun z => hne (z.2.2.symm.trans hp)
      have cb : ¬ (A.getLast? = some x ∧ Ret c S x e) := fun z => hne (z.2.2.trans hp)
      rw [ls.othX x hxS.1.2 hxe ca cb]
      rcases a.val x hxS hT hokx with m | ⟨z, zq, zL, zc, zl, z1, z2⟩
      · exact Or.inl m
      · right
        have hze : z ≠ e := by
          rintro rfl
          exact hne (zl.symm.trans hp)
        exact s.pending hxS.1.1 ⟨z, (h.qnd.mem_erase_iff).mpr ⟨hze, zq⟩, zL, zc, zl, z1, z2⟩ h.qnd h.qlt
    · rw [s.lx he.1, hp] at hokx
      exact absurd hokx hok
  · intro x hx hq
    have np : ¬ Popped S x ∧ x ≠ e := by
      rcases hq with m | m
      · refine ⟨fun z => (s.popped.mpr (Or.inl z)).2 m, ?_⟩
        rintro rfl; exact s.gone m
      · have := s.cnt
        refine ⟨fun z => ?_, ?_⟩
        · have := z.1.1; omega
        · rintro rfl; have := he.1; omega
    rw [ls.othX x hx np.2 (fun z => np.1 (hB z.1)) (fun z => np.1 (hA z.1))]
    refine a.fresh x hx ?_
    by_cases hc : x < cnt S
    · rcases hq with k | k
      · exact Or.inl (s.queued hc k).1
      · have := s.cnt; omega
    · exact Or.inr (not_lt.mp hc)

end

/-- The invariant of the mixed engine. -/
structure MInv (c : Ctx) (op : MixOp) (T : Bool) (inte : ℕ → Bool) (q : ℕ → ℚ → Bool) (ok : ℚ → Prop) (M : Mix)
    (p : Point) : Prop where
  inv : Inv c M.lin p
  len : Len M
  interior : ∀ i, inteOf M i = inte i
  pass : Pass c M.lin p
  collB : CollB c M.lin
  ann : Ann c T q ok M.lin (flag M.other)
  ov : OvI c M.lin (flag M.overlap)
  fr : FrOn op M (Popped M.lin)

section
variable {op : MixOp} {T : Bool} {inte : ℕ → Bool} {q : ℕ → ℚ → Bool} {ok : ℚ → Prop} {M : Mix} {p : Point} {e : ℕ}

theorem MInv.step (g : c.Good) (lab : Lab c T inte q ok)
    (hdown : ∀ i < c.N, opB c i = T → ∀ t t', c.X (c.A i) ≤ t → t ≤ t' → ok t' → ok t)
    (h : MInv c op T inte q ok M p) (hpop : M.lin.popEvent = some e) :
    (M.process op e).2 = true ∧ MInv c op T inte q ok (M.process op e).1 (M.lin.start e) ∧
    (M.process op e).1.lin = M.lin.process e := by
  obtain ⟨h1, h2, s, hr⟩ := h.inv.step g hpop
  have l := least_of_pop g h.inv.wf h.inv.qlt hpop
  have he := h.inv.qlt e l.mem
  have hpass : Pass c M.lin (M.lin.start e) := by
    rcases eq_or_lt_of_le (h.inv.qge e l.mem) with k | k
    · have : p = M.lin.start e := (g.eq_iff h.inv.pP (h.inv.wf.memP e he)).mpr k
      rw [← this]; exact h.pass
    · exact Pass.advance h.inv h.collB l.mem l.le k
  by_cases hl : isLeft e = true
  · obtain ⟨A, B, S2, S3, lp⟩ := h1.leftParts g l rfl hl
    have heL : IsL M.lin e := ⟨he, isLeft_iff.mp hl⟩
    have hfresh : flag M.other e = false := h.ann.fresh e heL.2 (Or.inl l.mem)
    obtain ⟨m1, m2⟩ := mix_left g (op := op) h1 l rfl hl lp h.len hfresh
    rw [lp.proc] at h2 s
    have hlin : (M.process op e).1.lin = M.lin.process e := by rw [m2.lin, lp.proc]
    refine ⟨m1, ⟨?_, m2.len, ?_, ?_, ?_, ?_, ?_, ?_⟩, hlin⟩
    · rw [m2.lin]; exact h2
    · intro i; unfold inteOf; rw [m2.interior]; exact h.interior i
    · rw [m2.lin]; exact hpass.step s h2.qge
    · rw [m2.lin]; exact CollB.left g h1 l rfl hl lp s h.collB
    · rw [m2.lin]
      by_cases hok : ok (c.X (M.lin.start e))
      · have st := m2.step
        have : inteOf M = inte := funext h.interior
        rw [this] at st
        exact Ann.left g h1 l rfl hl hpass h.collB lp s st lab hok hdown h.ann
      · exact Ann.left_skip g h1 l rfl hl lp s m2.step hok h.ann
    · rw [m2.lin]; exact OvI.left g h1 l rfl hl lp s m2.step h.ov
    · intro x hx hpx
      refine m2.fr (Popped M.lin) (fun y hy => hy.1.1) h.fr x hx ?_
      rw [m2.lin] at hpx
      exact (s.popped.mp hpx).imp_right (fun z => z.1)
  · obtain ⟨m1, m2, m3, m4, m5, m6, m7, m8⟩ := mix_right g (op := op) h1 l rfl hl h.len
    obtain ⟨o1, o2⟩ := OvI.right h.ov s hl m7 m8
    refine ⟨m1, ⟨?_, m4, ?_, ?_, ?_, ?_, ?_, ?_⟩, m2⟩
    · rw [m2]; exact h2
    · intro i; unfold inteOf; rw [m3]; exact h.interior i
    · rw [m2]; exact hpass.step s h2.qge
    · rw [m2]; exact h.collB.right s hl
    · rw [m2]; exact Ann.right h.ann h1.toInv0 s hl (fun x _ => m5 x)
    · rw [m2]; exact o1
    · intro x hx hpx
      rw [m2] at hpx
      have hpx' : Popped M.lin x := by
        rcases s.popped.mp hpx with k | ⟨_, k⟩
        · exact k
        · exact absurd (isLeft_iff.mpr k.2) hl
      rw [m6, m5, o2 x hx, h.fr x hx hpx', m2]
      congr 1
      unfold Lin.leftFirst
      rw [s.sid x hpx'.1.1, h2.wf.fc, h1.wf.fc]

end

/-- What the loop establishes. -/
structure MFinal (c : Ctx) (op : MixOp) (T : Bool) (q : ℕ → ℚ → Bool) (ok : ℚ → Prop) (stop : Point → Bool)
    (wanted : ℕ → Bool) (M : Mix) (acc : List ℕ) : Prop where
  wf : Wf c M.lin
  nd : acc.Nodup
  mem : ∀ x, x ∈ acc ↔ x < cnt M.lin ∧ wanted x = true ∧ stop (M.lin.start x) = false
  noInt : ∀ q ∈ c.P, stop q = false → ∀ e, IsL M.lin e → c.On (M.lin.sid e) q → ¬ Int c M.lin e (c.X q)
  oth : ∀ x, IsL M.lin x → stop (M.lin.start x) = false → opB c (M.lin.sid x) = T → ok (lx c M.lin x) →
    flag M.other x = q (M.lin.sid x) (lx c M.lin x)
  ov : ∀ x, IsL M.lin x → stop (M.lin.start x) = false →
    (flag M.overlap x = true ↔ ∃ y, IsL M.lin y ∧ y ≠ x ∧ Ret c M.lin x y)
  fr : ∀ x, IsL M.lin x → stop (M.lin.start x) = false →
    flag M.fromResult x = det op (M.lin.leftFirst x) (flag M.other x) (flag M.overlap x)
  collB : ∀ x y, IsL M.lin x → IsL M.lin y → stop (M.lin.start x) = false → Ret c M.lin x y →
    rx c M.lin x ≤ c.X (c.B (M.lin.sid y))

section
variable {op : MixOp} {T : Bool} {inte : ℕ → Bool} {q : ℕ → ℚ → Bool} {ok : ℚ → Prop}

/-- The end of the loop. -/
theorem MInv.final (g : c.Good) {stop : Point → Bool} {wanted : ℕ → Bool} {M : Mix} {p : Point} {acc : List ℕ}
    (h : MInv c op T inte q ok M p) (nd : acc.Nodup)
    (hq : ∀ e ∈ M.lin.queue, stop (M.lin.start e) = true)
    (mem : ∀ x, x ∈ acc ↔ x < cnt M.lin ∧ wanted x = true ∧ stop (M.lin.start x) = false)
    (noInt : ∀ q ∈ c.P, stop q = false → ∀ e, IsL M.lin e → c.On (M.lin.sid e) q → ¬ Int c M.lin e (c.X q)) :
    MFinal c op T q ok stop wanted M acc := by
  have pop : ∀ x, IsL M.lin x → stop (M.lin.start x) = false → Popped M.lin x := by
    intro x hx hs
    refine ⟨hx, fun z => ?_⟩
    rw [hq x z] at hs
    exact absurd hs (by simp)
  have same : ∀ x y, IsL M.lin x → IsL M.lin y → lx c M.lin x = lx c M.lin y → M.lin.start x = M.lin.start y :=
    fun x y hx hy e => (g.eq_iff (h.inv.wf.memP x hx.1) (h.inv.wf.memP y hy.1)).mpr e
  refine ⟨h.inv.wf, nd, mem, noInt, fun x hx hs hT hok => ?_, fun x hx hs => ?_, fun x hx hs => ?_,
    fun x y hx hy hs hr => ?_⟩
  · rcases h.ann.val x (pop x hx hs) hT hok with k | ⟨z, zq, zL, _, zl, _⟩
    · exact k
    · have := hq z zq
      rw [same z x zL hx zl, hs] at this
      exact absurd this (by simp)
  · rw [h.ov.val x (pop x hx hs)]
    refine exists_congr fun y => ?_
    constructor
    · rintro ⟨k1, k2, k3⟩
      exact ⟨k1.1, k2, k3⟩
    · rintro ⟨k1, k2, k3⟩
      refine ⟨pop y k1 ?_, k2, k3⟩
      rw [← same x y hx k1 k3.2]; exact hs
  · exact h.fr x hx.2 (pop x hx hs)
  · refine h.collB x y hx hy (pop x hx hs).2 (pop y hy ?_).2 hr.1 hr.2
    rw [← same x y hx hy hr.2]; exact hs

theorem mix_loop (g : c.Good) (lab : Lab c T inte q ok)
    (hdown : ∀ i < c.N, opB c i = T → ∀ t t', c.X (c.A i) ≤ t → t ≤ t' → ok t' → ok t)
    {stop : Point → Bool} {wanted : ℕ → Bool}
    (hs : ∀ p ∈ c.P, ∀ q ∈ c.P, c.X p ≤ c.X q → stop p = true → stop q = true) :
    ∀ (fuel : ℕ) (M : Mix) (p : Point) (acc : List ℕ), MInv c op T inte q ok M p → meas c M.lin < fuel →
    acc.Nodup → (∀ x, x ∈ acc ↔ x < cnt M.lin ∧ wanted x = true ∧ x ∉ M.lin.queue) →
    (∀ x < cnt M.lin, x ∉ M.lin.queue → stop (M.lin.start x) = false) →
    MFinal c op T q ok stop wanted (M.loop op stop wanted fuel acc).1 (M.loop op stop wanted fuel acc).2 ∧
    (M.loop op stop wanted fuel acc).1.lin.ok = M.lin.ok := by
  intro fuel
  induction fuel with
  | zero => intro M p acc _ hf; omega
  | succ fuel ih =>
    intro M p acc h hf nd hacc hns
    unfold Mix.loop
    cases hpop : M.lin.popEvent with
    | none =>
      have hq := popEvent_none hpop
      simp only
      refine ⟨h.final g nd (by rw [hq]; simp) (fun x => ?_) (fun q hqP hqs e he hon hint => ?_), trivial⟩
      · rw [hacc]
        refine and_congr_right fun hx => and_congr_right fun _ => ?_
        rw [hq]
        simp only [List.not_mem_nil, not_false_eq_true, true_iff]
        exact hns x hx (by rw [hq]; simp)
      · have hnq : ∀ e ∈ M.lin.queue, c.X p < lx c M.lin e := by rw [hq]; simp
        rcases lt_trichotomy (c.X q) (c.X p) with k | k | k
        · exact h.inv.noInt q hqP k e he hon hint
        · have : q = p := (g.eq_iff hqP h.inv.pP).mpr k
          subst this
          exact h.inv.noPass g hnq e he hon hint
        · have := h.inv.ple _ (h.inv.wf.oppLt e he.1) (by rw [hq]; simp)
          have e1 : lx c M.lin (M.lin.opp e) = rx c M.lin e := rfl
          have := hint.2
          linarith
    | some e =>
      simp only
      obtain ⟨m1, m2, m3⟩ := h.step g lab hdown hpop
      obtain ⟨h1, h2, s, hr⟩ := h.inv.step g hpop
      have l := least_of_pop g h.inv.wf h.inv.qlt hpop
      have he := h.inv.qlt e l.mem
      have ep := h.inv.wf.memP e he
      have est : (M.process op e).1.lin.start e = M.lin.start e := by rw [m3]; exact s.start e he
      rw [if_pos m1, est]
      by_cases hst : stop (M.lin.start e) = true
      · rw [if_pos hst]
        simp only
        have hqs : ∀ x ∈ (M.process op e).1.lin.queue, stop ((M.process op e).1.lin.start x) = true := by
          intro x hx
          exact hs _ ep _ (m2.inv.wf.memP x (m2.inv.qlt x hx)) (m2.inv.qge x hx) hst
        refine ⟨m2.final g nd hqs (fun x => ?_) (fun q hqP hqs x hx hon hint => ?_), by rw [m3]; exact s.ok⟩
        · rw [hacc]
          constructor
          · rintro ⟨k1, k2, k3⟩
            refine ⟨by rw [m3]; exact lt_of_lt_of_le k1 s.cnt, k2, ?_⟩
            rw [m3, s.start x k1]; exact hns x k1 k3
          · rintro ⟨k1, k2, k3⟩
            have hxq : x ∉ (M.process op e).1.lin.queue := fun z => by rw [hqs x z] at k3; exact absurd k3 (by simp)
            rw [m3] at hxq k1
            have hxc : x < cnt M.lin := by
              by_contra z
              exact hxq (s.new x k1 (not_lt.mp z))
            refine ⟨hxc, k2, fun z => ?_⟩
            have hxe : x ≠ e := by
              rintro rfl
              rw [est, hst] at k3; exact absurd k3 (by simp)
            exact hxq ((s.queue x hxc hxe).mpr z)
        · have : c.X q < c.X (M.lin.start e) := by
            by_contra z
            have := hs _ ep q hqP (not_lt.mp z) hst
            rw [this] at hqs
            exact absurd hqs (by simp)
          exact m2.inv.noInt q hqP this x hx hon hint
      · rw [if_neg hst]
        have hst' : stop (M.lin.start e) = false := Bool.eq_false_iff.mpr hst
        have hm := s.meas
        rw [← m3] at hm s
        have old : ∀ x < cnt (M.process op e).1.lin, x ∉ (M.process op e).1.lin.queue →
            x < cnt M.lin ∧ (x ∉ M.lin.queue ∨ x = e) := by
          intro x hx hxq
          have hxc : x < cnt M.lin := by
            by_contra z
            exact hxq (s.new x hx (not_lt.mp z))
          refine ⟨hxc, ?_⟩
          by_cases hxe : x = e
          · exact Or.inr hxe
          · exact Or.inl fun z => hxq ((s.queue x hxc hxe).mpr z)
        obtain ⟨k1, k2⟩ := ih (M.process op e).1 _ (if wanted e = true then acc ++ [e] else acc) m2 (by omega) (by
            split
            · rw [List.nodup_append]
              refine ⟨nd, by simp, fun x hx y hy => ?_⟩
              rw [List.mem_singleton] at hy
              subst hy
              rintro rfl
              exact ((hacc x).mp hx).2.2 l.mem
            · exact nd)
          (fun x => by
            have a1 : x ∈ (if wanted e = true then acc ++ [e] else acc) ↔ x ∈ acc ∨ (x = e ∧ wanted e = true) := by
              split
              · rename_i k; simp [k]
              · rename_i k; simp [k]
            rw [a1, hacc]
            constructor
            · rintro (⟨z1, z2, z3⟩ | ⟨rfl, z⟩)
              · refine ⟨lt_of_lt_of_le z1 s.cnt, z2, fun w => ?_⟩
                have hxe : x ≠ e := by rintro rfl; exact z3 l.mem
                exact z3 ((s.queue x z1 hxe).mp w)
              · exact ⟨lt_of_lt_of_le he s.cnt, z, s.gone⟩
            · rintro ⟨z1, z2, z3⟩
              obtain ⟨w1, w2⟩ := old x z1 z3
              rcases w2 with w2 | rfl
              · exact Or.inl ⟨w1, z2, w2⟩
              · exact Or.inr ⟨rfl, z2⟩)
          (fun x hx hxq => by
            obtain ⟨w1, w2⟩ := old x hx hxq
            rw [s.start x w1]
            rcases w2 with w2 | rfl
            · exact hns x w1 w2
            · exact hst')
        exact ⟨k1, k2.trans s.ok⟩

end

end Rene.Sweep
