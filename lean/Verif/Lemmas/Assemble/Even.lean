import Verif.Lemmas.Assemble.Graph
import Mathlib.Algebra.BigOperators.Ring.Finset
import Mathlib.Algebra.BigOperators.Fin

/-! Every vertex of the graph of the selected events has an even degree. -/

namespace Rene.Sweep
open Rene Spec Face Assemble

section
variable {ε : ℚ} {op : ShpOp} {first second full1 full2 : List Segment} {R1 R2 : Set Point} {stop : Point → Bool}
  {S : Shp} {M : Mix} {acc : List ℕ}

theorem z_sum_filter {s : Finset ℕ} (p : ℕ → Prop) [DecidablePred p] (f : ℕ → Bool) :
    ∑ x ∈ s.filter p, z (f x) = ∑ _x ∈ s.filter (fun x => p x ∧ f x = true), (1 : ZMod 2) := by
  rw [← Finset.filter_filter, Finset.sum_filter (p := fun x => f x = true)]
  refine Finset.sum_congr rfl fun x _ => ?_
  cases f x <;> simp

/-- An even number of selected events starts at a point. -/
theorem Fin.degree (h : Fin ε op first second full1 full2 R1 R2 stop S M acc)
    (gl : Glue ε op first second full1 full2 stop) (cl : Close ε op first second full1 full2 stop) {w : Point}
    (hw : w ∈ (ctxOf first second ε).P) (hs : stop w = false) :
    ∑ _e ∈ (selEvents S acc).toFinset.filter (fun e => S.lin.start e = w), (1 : ZMod 2) = 0 := by
  have E := h.even gl hw hs
  rw [z_sum_filter, z_sum_filter] at E
  have wf := h.wf
  rw [← Finset.sum_filter_add_sum_filter_not _ (fun e => e % 2 = 0), ← E]
  congr 1
  · refine Finset.sum_congr (Finset.ext fun e => ?_) fun _ _ => rfl
    simp only [Finset.mem_filter, List.mem_toFinset, Finset.mem_range, mem_selEvents h]
    constructor
    · rintro ⟨⟨⟨a, b, d⟩, f⟩, k⟩
      exact ⟨a, ⟨k, f⟩, by rw [← fromResult_left' k]; exact d⟩
    · rintro ⟨a, ⟨k, f⟩, d⟩
      exact ⟨⟨⟨a, by rw [f]; exact hs, by rw [fromResult_left' k]; exact d⟩, f⟩, k⟩
  · refine Finset.sum_nbij' S.lin.opp S.lin.opp ?_ ?_ ?_ ?_ ?_
    · intro e he
      simp only [Finset.mem_filter, List.mem_toFinset, Finset.mem_range, mem_selEvents h] at he ⊢
      obtain ⟨⟨⟨a, b, d⟩, f⟩, k⟩ := he
      have hl : ¬ isLeft e = true := fun q => k (isLeft_iff.mp q)
      have hL := toLeft_isL wf a
      rw [isFromResult_eq] at d
      rw [toLeft_right hl] at hL d
      refine ⟨hL.1, ⟨hL.2, ?_⟩, d⟩
      show S.lin.start (S.lin.opp (S.lin.opp e)) = w
      rw [wf.oppOpp e a, f]
    · intro e he
      simp only [Finset.mem_filter, List.mem_toFinset, Finset.mem_range, mem_selEvents h] at he ⊢
      obtain ⟨a, ⟨k, f⟩, d⟩ := he
      have f' : S.lin.start (S.lin.opp e) = w := f
      refine ⟨⟨⟨wf.oppLt e a, by rw [f']; exact hs, ?_⟩, f'⟩, ?_⟩
      · rw [isFromResult_eq, toLeft_opp wf a, toLeft_left (isLeft_iff.mpr k)]; exact d
      · have := wf.oppPar e a
        omega
    · intro e he
      simp only [Finset.mem_filter, List.mem_toFinset, mem_selEvents h] at he
      exact wf.oppOpp e he.1.1.1
    · intro e he
      simp only [Finset.mem_filter, Finset.mem_range] at he
      exact wf.oppOpp e he.1
    · intro _ _; rfl

theorem Fin.ev (h : Fin ε op first second full1 full2 R1 R2 stop S M acc)
    (gl : Glue ε op first second full1 full2 stop) (cl : Close ε op first second full1 full2 stop) :
    (darts (h.evs cl)).Ev fun _ => true := by
  refine ⟨fun _ => rfl, fun ρ => ?_⟩
  set c := ctxOf first second ε with hc
  have nd := (h.evs cl).nodup
  have e1 : ∑ d, z (true && ρ ((darts (h.evs cl)).v d)) = ∑ e ∈ (selEvents S acc).toFinset, z (ρ (lx c S.lin e)) := by
    rw [List.sum_toFinset _ nd, ← List.sum_ofFn]
    congr 1
    conv_rhs => rw [← List.ofFn_get (selEvents S acc)]
    rw [List.map_ofFn]
    rfl
  rw [e1, ← Finset.sum_fiberwise_of_maps_to (g := S.lin.start) (t := (selEvents S acc).toFinset.image S.lin.start)
    (fun e he => Finset.mem_image_of_mem _ he)]
  refine Finset.sum_eq_zero fun w hw => ?_
  obtain ⟨e, he, rfl⟩ := Finset.mem_image.mp hw
  obtain ⟨m1, m2, m3⟩ := (mem_selEvents h).mp (List.mem_toFinset.mp he)
  have d := h.degree gl cl (h.wf.memP e m1) m2
  have : ∀ x ∈ (selEvents S acc).toFinset.filter (fun x => S.lin.start x = S.lin.start e), z (ρ (lx c S.lin x)) =
      z (ρ (c.X (S.lin.start e))) * 1 := by
    intro x hx
    rw [mul_one, ← (Finset.mem_filter.mp hx).2]; rfl
  rw [Finset.sum_congr rfl this, ← Finset.mul_sum, d, mul_zero]

/-- The assembly of the selected events succeeds. -/
theorem Fin.assembled (h : Fin ε op first second full1 full2 R1 R2 stop S M acc)
    (gl : Glue ε op first second full1 full2 stop) (cl : Close ε op first second full1 full2 stop) :
    ∃ a Cs, S.assemble (selEvents S acc) (Shp.toEventsIds S.lin.endpoints.length (selEvents S acc)) (S.connectivity (selEvents S acc))
      (Shp.Asm.init (selEvents S acc).length) 0 (selEvents S acc) = .ok a ∧
    AsmInv (h.evs cl) (sideOf (darts (h.evs cl)) (fun i => slope (ctxOf first second ε) S.lin ((selEvents S acc).get i))
      (fun i => icept (ctxOf first second ε) S.lin ((selEvents S acc).get i))) a Cs (selEvents S acc).length :=
  assemble_spec (h.evs cl) (h.graph cl) (h.ev gl cl) (h.geo cl).lt (eventsIds_get (h.evs cl)) (h.below cl) _ _ _ 0 rfl
    (init_asm (h.evs cl))

end

end Rene.Sweep
