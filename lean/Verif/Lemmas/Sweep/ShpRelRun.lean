import Verif.Lemmas.Sweep.ShpRelLoop

/-! # The relation of two shapes: the whole run -/

namespace Rene.Sweep
open Rene.Face Finset Spec

section
variable {ε : ℚ} {first second : List Segment} {R1 R2 : Set Point}

/-- The marks of the segments of an operand in the other one. -/
noncomputable def qDuo (ε : ℚ) (first second : List Segment) (T : Bool) (i : ℕ) (τ : ℚ) : Bool :=
  xorSum (gb ε T (segAt (first ++ second) i) τ) (kept first second (!T))

theorem mem_kept {T : Bool} {i : ℕ} (hi : i < (first ++ second).length) (h : opB (ctxOf first second ε) i = T) :
    segAt (first ++ second) i ∈ kept first second T := by
  have h : decide (i < first.length) = T := h
  cases T
  · have h := of_decide_eq_false h
    rw [segAt_append_right (not_lt.mp h)]
    rw [List.length_append] at hi
    exact segAt_mem (show i - first.length < second.length by omega)
  · have h := of_decide_eq_true h
    rw [segAt_append_left h]
    exact segAt_mem h

theorem kept_index {T : Bool} {s : Segment} (hs : s ∈ kept first second T) :
    ∃ i < (first ++ second).length, opB (ctxOf first second ε) i = T ∧ segAt (first ++ second) i = s := by
  cases T
  · obtain ⟨i, hi, e⟩ := mem_segAt (show s ∈ second from hs)
    refine ⟨first.length + i, by rw [List.length_append]; omega, decide_eq_false (not_lt.mpr (Nat.le_add_right first.length i)), ?_⟩
    rw [segAt_append_right (Nat.le_add_right _ _), Nat.add_sub_cancel_left]
    exact e
  · obtain ⟨i, hi, e⟩ := mem_segAt (show s ∈ first from hs)
    refine ⟨i, by rw [List.length_append]; omega, decide_eq_true hi, ?_⟩
    rw [segAt_append_left hi]
    exact e

theorem duo (g : (ctxOf first second ε).Good) (e1 : Edges ε first R1) (e2 : Edges ε second R2) (n1 : NoOverlap first)
    (n2 : NoOverlap second) : Duo (ctxOf first second ε) (inteOf (Mix.init first second)) (qDuo ε first second) := by
  have eT : ∀ T, ∃ R, Edges ε (kept first second T) R := fun T => by cases T; exact ⟨_, e2⟩; exact ⟨_, e1⟩
  have nT : ∀ T, NoOverlap (kept first second T) := fun T => by cases T; exact n2; exact n1
  refine ⟨g, fun i hi t si => ?_, fun T => ?_, fun i hi t si tw => ?_⟩
  · obtain ⟨R, e⟩ := eT (opB (ctxOf first second ε) i)
    rw [mix_init_interior hi, par_low]
    exact e.dir_right (nT _) (mem_kept hi rfl) si fun s _ => gs_iff
  · obtain ⟨R, e⟩ := eT (!T)
    refine mix_lab e (nT _) (fun i hi h => ?_) fun s hs => Or.inl ?_
    · exact mem_kept hi (Bool.eq_not_of_ne h)
    · obtain ⟨i, hi, ho, es⟩ := kept_index (ε := ε) hs
      exact ⟨i, hi, by rw [ho]; cases T <;> decide, es⟩
  · rw [par_low]
    unfold qDuo
    refine xorSum_congr fun s hs => bool_eq_of_iff ?_
    rw [gb_iff, gs_iff]
    refine and_congr_right fun sp => or_iff_left ?_
    rintro ⟨cl, _⟩
    obtain ⟨k, hk, ko, rfl⟩ := kept_index (ε := ε) hs
    refine tw k ⟨hk, sp, ⟨cl.1.symm, cl.2.symm⟩, ?_⟩
    rintro rfl
    revert ko
    cases opB (ctxOf first second ε) k <;> simp

theorem run_init (h1 : ∀ s ∈ first, s.start ≠ s.end) (h2 : ∀ s ∈ second, s.start ≠ s.end) (hne : first ++ second ≠ [])
    (g : (ctxOf first second ε).Good) (q : Bool → ℕ → ℚ → Bool) :
    ∃ p, Run (ctxOf first second ε) (inteOf (Mix.init first second)) q (Shp.init first second) (Mix.init first second) p := by
  have hlin : (Shp.init first second).lin = Lin.init first second := mix_init_lin h1 h2
  have hcnt : cnt (Shp.init first second).lin = 2 * (first ++ second).length := by rw [hlin, init_cnt]
  have hcntM : cnt (Mix.init first second).lin = 2 * (first ++ second).length := hcnt
  obtain ⟨p, h⟩ := init_inv g hne
  have hq : ∀ e, e ∈ (Shp.init first second).lin.queue ↔ e < cnt (Shp.init first second).lin := by
    rw [hlin]; exact init_queue
  have hqM : ∀ e, e ∈ (Mix.init first second).lin.queue ↔ e < cnt (Mix.init first second).lin := hq
  have hnp : ∀ x, ¬ Popped (Shp.init first second).lin x := fun x hx => hx.2 ((hq x).mpr hx.1.1)
  have hnpM : ∀ x, ¬ Popped (Mix.init first second).lin x := hnp
  have hlen : (first ++ second).length = first.length + second.length := List.length_append
  have h' : Inv (ctxOf first second ε) (Shp.init first second).lin p := by rw [hlin]; exact h
  refine ⟨p, ⟨?_, fun T => ?_, ?_⟩⟩
  · refine ⟨h', ⟨?_, ?_, ?_, ?_, ?_⟩, fun _ => rfl, fun x y hx => absurd hx (hnp x), fun x _ hx => absurd hx (hnp x),
      fun x _ _ => ?_, fun z hz => absurd hz (hnp z), fun x z hx => absurd hx (hnp x), ?_⟩
    · rw [hcnt, hlen]; show (List.replicate _ _).length * 2 = _; rw [List.length_replicate]; omega
    · rw [hcnt, hlen]; show (List.replicate _ _).length * 2 = _; rw [List.length_replicate]; omega
    · rw [hcnt, hlen]; show (List.replicate _ _).length * 2 = _; rw [List.length_replicate]; omega
    · rw [hcnt, hlen]; show (List.replicate _ _).length * 2 = _; rw [List.length_replicate]; omega
    · rw [hcnt, hlen]; show (List.replicate _ _).length = _; rw [List.length_replicate]
    · show (List.replicate _ none).getD _ none = none
      rw [List.getD_eq_getElem?_getD, List.getElem?_replicate]
      split <;> rfl
    · cases hpop : (Shp.init first second).lin.popEvent with
      | none =>
        have := popEvent_none hpop
        refine ⟨Or.inr this, fun x hx hx' => absurd ((hq x).mpr hx) hx', fun x hx => ?_,
          fun x hx hx' => absurd ((hq x).mpr hx) hx', fun x hx y _ hx' => absurd ((hq x).mpr hx) hx'⟩
        rw [this] at hx; simp at hx
      | some e =>
        have l := least_of_pop g h'.wf h'.qlt hpop
        have e1 : (Shp.init first second).currentFirst = e := by
          show (Mix.init first second).lin.popEvent.getD 0 = e
          have : (Mix.init first second).lin.popEvent = some e := hpop
          rw [this]; rfl
        refine ⟨Or.inl (by rw [e1]; exact h'.qlt e l.mem), fun x hx hx' => absurd ((hq x).mpr hx) hx', fun x hx => ?_,
          fun x hx hx' => absurd ((hq x).mpr hx) hx', fun x hx y _ hx' => absurd ((hq x).mpr hx) hx'⟩
        rw [e1]; exact l.le x hx
  · refine ⟨h', ⟨?_, ?_, ?_⟩, fun _ => rfl, ?_, ?_, ⟨fun x hx => absurd hx (hnpM x), fun x _ _ => ?_⟩,
      ⟨fun x hx => absurd hx (hnpM x), fun x _ _ => ?_⟩, fun x _ hx => absurd hx (hnpM x)⟩
    · rw [hcntM, hlen]; show (List.replicate _ _).length * 2 = _; rw [List.length_replicate]; omega
    · rw [hcntM, hlen]; show (List.replicate _ _).length * 2 = _; rw [List.length_replicate]; omega
    · rw [hcntM, hlen]; show (List.replicate _ _).length * 2 = _; rw [List.length_replicate]; omega
    · intro x y hx hy _ _ _ hl
      have := h'.qge y ((hq y).mpr hy.1)
      have hl : lx (ctxOf first second ε) (Shp.init first second).lin y < (ctxOf first second ε).X p := hl
      linarith
    · intro x y hx _ hnx
      exact absurd ((hqM x).mpr hx.1) hnx
    · exact flag_replicate _ _
    · exact flag_replicate _ _
  · refine ⟨rfl, rfl, rfl, ?_⟩
    show (List.replicate _ OverlapKind.none).map _ = List.replicate _ false
    rw [List.map_replicate]; rfl

/-- The whole run. -/
theorem toRelation_run (g : (ctxOf first second ε).Good) (e1 : Edges ε first R1) (e2 : Edges ε second R2)
    (n1 : NoOverlap first) (n2 : NoOverlap second) (hne : first ++ second ≠ []) (fs ss : Bool) {m : ℚ} {b0 : Bool}
    (hm : ∀ z, InOp (ctxOf first second ε) b0 z → z.x ≤ m) :
    ∃ st, SFin (ctxOf first second ε) (inteOf (Mix.init first second)) { firstIsSubset := fs, secondIsSubset := ss } st ∧
      (Shp.init first second).toRelation (first.length + second.length) fs ss m = .ok st.relation := by
  have D := duo g e1 e2 n1 n2
  set c := ctxOf first second ε with hc
  obtain ⟨p, R⟩ := run_init n1.1 n2.1 hne g (qDuo ε first second)
  have hlin : (Shp.init first second).lin = Lin.init first second := mix_init_lin n1.1 n2.1
  have hm0 : meas c (Shp.init first second).lin < Lin.fuel (first.length + second.length) := by
    rw [hlin]; exact init_meas
  have hq : ∀ e, e ∈ (Shp.init first second).lin.queue ↔ e < cnt (Shp.init first second).lin := by
    rw [hlin]; exact init_queue
  have hok : (Shp.init first second).lin.ok = true := by rw [hlin]; exact init_ok g
  unfold Shp.toRelation
  cases hpop : (Shp.init first second).lin.popEvent with
  | none =>
    exfalso
    have hz := popEvent_none hpop
    have : 0 ∈ (Shp.init first second).lin.queue := by
      rw [hq, hlin, init_cnt]
      have : 0 < (first ++ second).length := List.length_pos_iff.mpr hne
      omega
    rw [hz] at this
    simp at this
  | some e =>
    simp only
    have w := R.s.inv.wf
    have l := least_of_pop g w R.s.inv.qlt hpop
    have he := R.s.inv.qlt e l.mem
    obtain ⟨M', R', hlin'⟩ := R.step D hpop
    obtain ⟨k1, -⟩ := R.s.inv.step g hpop
    have gn : GInv c (Shp.init first second).lin ((Shp.init first second).lin.start e) [] :=
      GInv.new k1 fun x hx hxq => absurd ((hq x).mpr hx) hxq
    obtain ⟨k2, s⟩ := gn.step g hpop rfl
    have hmeas := s.meas
    rw [← hlin'] at k2 s hmeas
    -- no relevant points before the first event
    have first_pt : ∀ z ∈ c.P, c.X ((Shp.init first second).lin.start e) ≤ c.X z := by
      intro z hz
      obtain ⟨i, hi, on, z1, z2⟩ := mem_on g hz
      have hA := w.initA i hi
      have := l.le (2 * i) ((hq _).mpr (by have : 2 * c.N ≤ _ := w.big; omega))
      have e2 : lx c (Shp.init first second).lin (2 * i) = c.X (c.A i) := by unfold lx; rw [hA]
      have e3 : lx c (Shp.init first second).lin e = c.X ((Shp.init first second).lin.start e) := rfl
      linarith
    have hgap : Gap c (c.X ((Shp.init first second).lin.start e) - 1) ((Shp.init first second).lin.start e) :=
      ⟨w.memP e he, by linarith, fun z hz k => absurd k (not_lt.mpr (first_pt z hz))⟩
    have hst : SSt c (inteOf (Mix.init first second)) (c.X ((Shp.init first second).lin.start e) - 1)
        { firstIsSubset := fs, secondIsSubset := ss } { firstIsSubset := fs, secondIsSubset := ss } := by
      refine ⟨Le.refl _, ⟨fun b k => Or.inl k, fun k => ?_, fun b k => ?_, fun k => ?_, rfl⟩, Or.inr ⟨fun i hi t ht si => ?_, fun z hz k => ?_⟩⟩
      · cases k
      · cases b <;> cases k
      · cases k
      · have := first_pt _ (g.memA i hi)
        have := si.1
        linarith
      · have := first_pt z hz
        linarith
    obtain ⟨f1, f2⟩ := srelateLoop_spec D hm (Lin.fuel (first.length + second.length)) _ M' _ _ _ [e] R' k2 (by simp)
      hgap hst (by omega)
    refine ⟨_, f1, ?_⟩
    rw [f2, s.ok, hok, f1.snd.ok]
    rfl
end

end Rene.Sweep
