import Verif.Lemmas.Sweep.MixLoop
import Verif.Lemmas.Sweep.Build
import Verif.Lemmas.Sweep.ContourParity

/-! The initial state and the result of the mixed engine. -/

namespace Rene.Sweep
open Rene Spec

theorem mix_endpoints (l : List Segment) : (∀ s ∈ l, s.start ≠ s.end) →
    Mix.segmentsEndpoints l = Lin.segmentsEndpoints l := by
  intro h
  unfold Mix.segmentsEndpoints Lin.segmentsEndpoints
  induction l with
  | nil => rfl
  | cons s l ih =>
    rw [List.flatMap_cons, List.flatMap_cons, ih fun t ht => h t (List.mem_cons_of_mem _ ht)]
    congr 1
    have hs := h s (by simp)
    unfold toSortedPair
    by_cases k : s.start.gtB s.end = true
    · have k1 : ¬ s.start.ltB s.end = true := fun z => lt_asymm (Point.ltB_iff.mp z) (Point.gtB_iff.mp k)
      rw [if_pos k, if_neg k1]
    · have k1 : s.start.ltB s.end = true := by
        rw [Point.ltB_iff]
        rcases lt_trichotomy s.start s.end with z | z | z
        · exact z
        · exact absurd z hs
        · exact absurd (Point.gtB_iff.mpr z) k
      rw [if_neg k, if_pos k1]

theorem mix_init_lin {first second : List Segment} (h1 : ∀ s ∈ first, s.start ≠ s.end)
    (h2 : ∀ s ∈ second, s.start ≠ s.end) : (Mix.init first second).lin = Lin.init first second := by
  unfold Mix.init Lin.init
  rw [mix_endpoints _ h1, mix_endpoints _ h2]

theorem mix_init_interior {first second : List Segment} {i : ℕ} (hi : i < (first ++ second).length) :
    inteOf (Mix.init first second) i = goesUp (segAt (first ++ second) i) := by
  show (Mix.segmentsInterior first ++ Mix.segmentsInterior second).getD i false = _
  unfold Mix.segmentsInterior
  rw [← List.map_append, List.getD_eq_getElem?_getD, List.getElem?_map]
  unfold segAt
  rw [List.getD_eq_getElem?_getD, List.getElem?_eq_getElem hi]
  rfl

theorem flag_replicate (n x : ℕ) : flag (List.replicate n false) x = false := by
  unfold flag
  rw [List.getD_eq_getElem?_getD]
  by_cases h : x / 2 < n
  · rw [List.getElem?_replicate, if_pos h]; rfl
  · rw [List.getElem?_replicate, if_neg h]; rfl

theorem mix_run_final {ε : ℚ} {first second : List Segment} (h1 : ∀ s ∈ first, s.start ≠ s.end)
    (h2 : ∀ s ∈ second, s.start ≠ s.end)
    (g : (ctxOf first second ε).Good) {op : MixOp} {T : Bool} {q : ℕ → ℚ → Bool} {ok : ℚ → Prop}
    (lab : Lab (ctxOf first second ε) T (inteOf (Mix.init first second)) q ok)
    (hdown : ∀ i < (ctxOf first second ε).N, opB (ctxOf first second ε) i = T → ∀ t t',
      (ctxOf first second ε).X ((ctxOf first second ε).A i) ≤ t → t ≤ t' → ok t' → ok t)
    {stop : Point → Bool} {wanted : ℕ → Bool}
    (hs : ∀ p q : Point, p ≤ q → stop p = true → stop q = true) :
    let r := (Mix.init first second).loop op stop wanted (Lin.fuel (first.length + second.length)) []
    MFinal (ctxOf first second ε) op T q ok stop wanted r.1 r.2 ∧ r.1.lin.ok = true := by
  intro r
  have hlin := mix_init_lin h1 h2
  have hcnt : cnt (Mix.init first second).lin = 2 * (first ++ second).length := by rw [hlin, init_cnt]
  by_cases hne : first ++ second = []
  · obtain ⟨k1, k2⟩ := List.append_eq_nil_iff.mp hne
    subst k1 k2
    have w := init_wf g
    have e : r = (Mix.init [] [], []) := rfl
    rw [e]
    have no : ∀ x, ¬ IsL (Lin.init [] []) x := by
      intro x hx
      have := hx.1
      rw [init_cnt] at this
      simp at this
    refine ⟨⟨w, List.nodup_nil, fun x => ?_, fun q _ _ x hx => absurd hx (no x), fun x hx => absurd hx (no x),
      fun x hx => absurd hx (no x), fun x hx => absurd hx (no x), fun x y hx => absurd hx (no x)⟩, rfl⟩
    simp only [List.not_mem_nil, false_iff, not_and]
    intro hx
    have : cnt (Mix.init [] []).lin = 0 := rfl
    omega
  · obtain ⟨p, h⟩ := init_inv g hne
    have hm : meas (ctxOf first second ε) (Mix.init first second).lin < Lin.fuel (first.length + second.length) := by
      rw [hlin]; exact init_meas
    have hq : ∀ e, e ∈ (Mix.init first second).lin.queue ↔ e < cnt (Mix.init first second).lin := by
      rw [hlin]; exact init_queue
    have hnp : ∀ x, ¬ Popped (Mix.init first second).lin x := fun x hx => hx.2 ((hq x).mpr hx.1.1)
    have hlen : (first ++ second).length = first.length + second.length := List.length_append
    have hI : MInv (ctxOf first second ε) op T (inteOf (Mix.init first second)) q ok (Mix.init first second) p := by
      refine ⟨by rw [hlin]; exact h, ⟨?_, ?_, ?_⟩, fun _ => rfl, ?_, ?_, ⟨fun x hx => absurd hx (hnp x), fun x _ _ => ?_⟩,
        ⟨fun x hx => absurd hx (hnp x), fun x _ _ => ?_⟩, fun x _ hx => absurd hx (hnp x)⟩
      · rw [hcnt, hlen]; show (List.replicate _ _).length * 2 = _; rw [List.length_replicate]; omega
      · rw [hcnt, hlen]; show (List.replicate _ _).length * 2 = _; rw [List.length_replicate]; omega
      · rw [hcnt, hlen]; show (List.replicate _ _).length * 2 = _; rw [List.length_replicate]; omega
      · intro x y hx hy _ _ _ hl
        rw [hlin] at hy hl
        have := h.qge y ((init_queue y).mpr hy.1)
        linarith
      · intro x y hx _ hnx
        exact absurd ((hq x).mpr hx.1) hnx
      · exact flag_replicate _ _
      · exact flag_replicate _ _
    obtain ⟨k1, k2⟩ := mix_loop g lab hdown (op := op) (stop := stop) (wanted := wanted)
      (fun p hp q hq hpq => hs p q ((g.le_iff hp hq).mpr hpq)) _ _ p [] hI hm List.nodup_nil
      (fun x => by
        simp only [List.not_mem_nil, false_iff, not_and, not_not]
        intro hx _; exact (hq x).mpr hx)
      (fun x hx hxq => absurd ((hq x).mpr hx) hxq)
    refine ⟨k1, k2.trans ?_⟩
    rw [hlin]; exact init_ok g

end Rene.Sweep
