import Verif.Lemmas.Sweep.ShpAdj
import Verif.Lemmas.Sweep.MixInit

/-! The whole loop of the shaped engine. -/

namespace Rene.Sweep
open Rene Spec

variable {c : Ctx} {op : ShpOp} {inte : ℕ → Bool}

theorem SInv.step (g : c.Good) {S : Shp} {p : Point} {e : ℕ} (h : SInv c op inte S p) (hpop : S.lin.popEvent = some e) :
    (S.process op e).2 = true ∧ SInv c op inte (S.process op e).1 (S.lin.start e) ∧
    (S.process op e).1.lin = S.lin.process e := by
  by_cases hl : isLeft e = true
  · exact h.step_left g hpop hl
  · exact h.step_right g hpop hl

theorem shp_loop (g : c.Good) (mop : MixOp) {stop : Point → Bool}
    (hs : ∀ p ∈ c.P, ∀ q ∈ c.P, c.X p ≤ c.X q → stop p = true → stop q = true) :
    ∀ (fuel : ℕ) (S : Shp) (M : Mix) (p : Point) (acc : List ℕ), SInv c op inte S p →
    (Sparse c → AInv c op S p) → Rel S M → meas c S.lin < fuel →
    Rel (S.loop op stop fuel acc).1 (M.loop mop stop (fun _ => true) fuel acc).1 ∧
    (S.loop op stop fuel acc).2 = (M.loop mop stop (fun _ => true) fuel acc).2 ∧
    ∃ p', SInv c op inte (S.loop op stop fuel acc).1 p' ∧ (Sparse c → AInv c op (S.loop op stop fuel acc).1 p') ∧
      ∀ e ∈ (S.loop op stop fuel acc).1.lin.queue, stop ((S.loop op stop fuel acc).1.lin.start e) = true := by
  intro fuel
  induction fuel with
  | zero => intro S M p acc _ _ _ hf; omega
  | succ fuel ih =>
    intro S M p acc h ha hR hf
    unfold Shp.loop Mix.loop
    rw [← hR.lin]
    cases hpop : S.lin.popEvent with
    | none =>
      have hq := popEvent_none hpop
      exact ⟨hR, rfl, p, h, ha, by simp [hq]⟩
    | some e =>
      simp only
      obtain ⟨m1, m2, m3⟩ := h.step g hpop
      obtain ⟨r1, r2⟩ := hR.process op mop e
      obtain ⟨_, _, s, _⟩ := h.inv.step g hpop
      have l := least_of_pop g h.inv.wf h.inv.qlt hpop
      have he := h.inv.qlt e l.mem
      have ep := h.inv.wf.memP e he
      have est : (S.process op e).1.lin.start e = S.lin.start e := by rw [m3]; exact s.start e he
      rw [← r1.lin, ← r2, if_pos m1, if_pos m1, est]
      simp only [if_true]
      by_cases hst : stop (S.lin.start e) = true
      · rw [if_pos hst, if_pos hst]
        refine ⟨r1, rfl, _, m2, fun nt => (ha nt).step nt g h hpop, fun x hx => ?_⟩
        exact hs _ ep _ (m2.inv.wf.memP x (m2.inv.qlt x hx)) (m2.inv.qge x hx) hst
      · rw [if_neg hst, if_neg hst]
        have hm := s.meas
        rw [← m3] at hm
        exact ih _ _ _ _ m2 (fun nt => (ha nt).step nt g h hpop) r1 (by omega)

/-- What the shaped engine reaches. -/
structure SFinal (c : Ctx) (op : ShpOp) (inte : ℕ → Bool) (stop : Point → Bool) (S : Shp) : Prop where
  inv : ∃ p, SInv c op inte S p
  queue : ∀ e ∈ S.lin.queue, stop (S.lin.start e) = true
  adj : Sparse c → ∃ p, SInv c op inte S p ∧ AInv c op S p

theorem shp_run_final {ε : ℚ} {first second : List Segment} (h1 : ∀ s ∈ first, s.start ≠ s.end)
    (h2 : ∀ s ∈ second, s.start ≠ s.end) (hne : first ++ second ≠ [])
    (g : (ctxOf first second ε).Good) {op : ShpOp} (mop : MixOp) {stop : Point → Bool}
    (hs : ∀ p q : Point, p ≤ q → stop p = true → stop q = true) :
    let r := (Shp.init first second).loop op stop (Lin.fuel (first.length + second.length)) []
    let m := (Mix.init first second).loop mop stop (fun _ => true) (Lin.fuel (first.length + second.length)) []
    SFinal (ctxOf first second ε) op (inteOf (Mix.init first second)) stop r.1 ∧ Rel r.1 m.1 ∧ r.2 = m.2 := by
  intro r m
  have hlin : (Shp.init first second).lin = Lin.init first second := mix_init_lin h1 h2
  have hcnt : cnt (Shp.init first second).lin = 2 * (first ++ second).length := by rw [hlin, init_cnt]
  obtain ⟨p, h⟩ := init_inv g hne
  have hm : meas (ctxOf first second ε) (Shp.init first second).lin < Lin.fuel (first.length + second.length) := by
    rw [hlin]; exact init_meas
  have hq : ∀ e, e ∈ (Shp.init first second).lin.queue ↔ e < cnt (Shp.init first second).lin := by
    rw [hlin]; exact init_queue
  have hnp : ∀ x, ¬ Popped (Shp.init first second).lin x := fun x hx => hx.2 ((hq x).mpr hx.1.1)
  have hlen : (first ++ second).length = first.length + second.length := List.length_append
  have h' : Inv (ctxOf first second ε) (Shp.init first second).lin p := by rw [hlin]; exact h
  have hI : SInv (ctxOf first second ε) op (inteOf (Mix.init first second)) (Shp.init first second) p := by
    refine ⟨h', ⟨?_, ?_, ?_, ?_, ?_⟩, fun _ => rfl, fun x y hx => absurd hx (hnp x), fun x _ hx => absurd hx (hnp x),
      fun x _ _ => ?_, fun z hz => absurd hz (hnp z), fun x z hx => absurd hx (hnp x), ?_⟩
    · rw [hcnt, hlen]; show (List.replicate _ _).length * 2 = _; rw [List.length_replicate]; omega
    · rw [hcnt, hlen]; show (List.replicate _ _).length * 2 = _; rw [List.length_replicate]; omega
    · rw [hcnt, hlen]; show (List.replicate _ _).length * 2 = _; rw [List.length_replicate]; omega
    · rw [hcnt, hlen]; show (List.replicate _ _).length * 2 = _; rw [List.length_replicate]; omega
    · rw [hcnt, hlen]; show (List.replicate _ _).length = _; rw [List.length_replicate]
    · show (List.replicate _ none).getD _ none = none
      rw [List.getD_eq_getElem?_getD, List.getElem?_replicate]
      split <;> rfl
    · cases hpop : (Shp.init first second).lin.popEvent with
      | none =>
        have := popEvent_none hpop
        refine ⟨Or.inr this, fun x hx hx' => absurd ((hq x).mpr hx) hx', fun x hx => ?_,
          fun x hx hx' => absurd ((hq x).mpr hx) hx', fun x hx y _ hx' => absurd ((hq x).mpr hx) hx'⟩
        rw [this] at hx; simp at hx
      | some e =>
        have l := least_of_pop g h'.wf h'.qlt hpop
        have e1 : (Shp.init first second).currentFirst = e := by
          show (Mix.init first second).lin.popEvent.getD 0 = e
          have : (Mix.init first second).lin.popEvent = some e := hpop
          rw [this]; rfl
        refine ⟨Or.inl (by rw [e1]; exact h'.qlt e l.mem), fun x hx hx' => absurd ((hq x).mpr hx) hx', fun x hx => ?_,
          fun x hx hx' => absurd ((hq x).mpr hx) hx', fun x hx y _ hx' => absurd ((hq x).mpr hx) hx'⟩
        rw [e1]; exact l.le x hx
  have hA : Sparse (ctxOf first second ε) → AInv (ctxOf first second ε) op (Shp.init first second) p := fun _ => by
    refine ⟨fun x hx hon hint => ?_, fun x hx => absurd hx (hnp x), fun x hx => absurd hx (hnp x)⟩
    exact absurd (h'.qge x ((hq x).mpr hx.1)) (not_le.mpr hint.1)
  have hR : Rel (Shp.init first second) (Mix.init first second) := by
    refine ⟨rfl, rfl, rfl, ?_⟩
    show (List.replicate _ OverlapKind.none).map _ = List.replicate _ false
    rw [List.map_replicate]; rfl
  obtain ⟨k1, k2, q, k3, ka, k4⟩ := shp_loop g mop (op := op) (stop := stop)
    (fun p hp q hq hpq => hs p q ((g.le_iff hp hq).mpr hpq)) _ _ _ p [] hI hA hR hm
  exact ⟨⟨⟨q, k3⟩, k4, fun nt => ⟨q, k3, ka nt⟩⟩, k1, k2⟩

end Rene.Sweep
