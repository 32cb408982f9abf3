import Verif.Lemmas.Sweep.ShpRelRun

/-! # The relation of two shapes: the meaning of the final state -/

namespace Rene.Sweep
open Rene.Face Finset Spec

variable {c : Ctx} {inte : ℕ → Bool}

/-- What a relation says about the points of the operands; `P1` and `P2` say that an operand is a part of the other one. -/
def CtxRel (c : Ctx) (P : Bool → Prop) : Relation → Prop
  | .disjoint => ∀ z, ¬ (Cl c true z ∧ Cl c false z)
  | .touch => Meet c ∧ (¬ ∃ z, ∀ b, Inn c b z) ∧ ¬ P true ∧ ¬ P false
  | .cross => False
  | .overlap => (∃ z, ∀ b, Inn c b z) ∧ ¬ P true ∧ ¬ P false
  | .cover => P false ∧ ¬ P true ∧ ∀ z, Cl c false z → Inn c true z
  | .encloses => P false ∧ ¬ P true ∧ Meet c ∧ ∃ z, InOp c false z ∧ Inn c true z
  | .composite => P false ∧ ¬ P true ∧ ∀ z, InOp c false z → InOp c true z
  | .equal => P true ∧ P false
  | .component => P true ∧ ¬ P false ∧ ∀ z, InOp c true z → InOp c false z
  | .enclosed => P true ∧ ¬ P false ∧ Meet c ∧ ∃ z, InOp c true z ∧ Inn c false z
  | .within => P true ∧ ¬ P false ∧ ∀ z, Cl c true z → Inn c false z

theorem meet_mem (g : c.Good) (h : Meet c) : ∃ z ∈ c.P, ∀ b, InOp c b z := by
  obtain ⟨z, h⟩ := h
  obtain ⟨i, hi, oi, on, i1, i2⟩ := h true
  obtain ⟨j, hj, oj, on', j1, j2⟩ := h false
  by_cases cl : c.Coll i j
  · rcases le_total (c.X (c.A i)) (c.X (c.A j)) with k | k
    · refine ⟨c.A j, g.memA j hj, fun b => ?_⟩
      cases b
      · exact ⟨j, hj, oj, g.onA j hj, le_rfl, (g.lt j hj).le⟩
      · exact ⟨i, hi, oi, (g.onA j hj).coll cl.symm, k, by linarith⟩
    · refine ⟨c.A i, g.memA i hi, fun b => ?_⟩
      cases b
      · exact ⟨j, hj, oj, (g.onA i hi).coll cl, k, by linarith⟩
      · exact ⟨i, hi, oi, g.onA i hi, le_rfl, (g.lt i hi).le⟩
  · exact ⟨z, g.cross i hi j hj cl z on on' i1 i2 j1 j2, h⟩

theorem relation_sets (g : c.Good) (hd : Dir c inte) {s0 st : ShapedState} (h : SFin c inte s0 st)
    (hne : ∀ b, ∃ z, InOp c b z) :
    CtxRel c (fun b => sSub s0 b = true ∧ ∀ z, Cl c b z → Cl c (!b) z) st.relation := by
  -- the flags
  have nsub : ∀ b, sSub st b = false → ¬ (sSub s0 b = true ∧ ∀ z, Cl c b z → Cl c (!b) z) := by
    rintro b k ⟨k1, k2⟩
    rcases h.snd.sub b k with k | ⟨o, k', ⟨i, hi, rfl, t, si, hk⟩, ho⟩
    · rw [k] at k1; cases k1
    · obtain ⟨z, z1, z2⟩ := (out_iff g hd).mpr ⟨i, hi, t, si, k', hk, ho⟩
      exact z2 (k2 z z1)
  have cont : st.hasContinuousIntersection = true → ∃ z, ∀ b, Inn c b z := by
    intro k
    obtain ⟨o, k', ⟨i, hi, rfl, t, si, hk⟩, ho⟩ := h.snd.cont k
    exact (inn_iff g hd).mpr ⟨i, hi, t, si, k', hk, ho⟩
  rcases h.acc with hb | ⟨acc, hbi⟩
  · have e : st.relation = .overlap := by
      have b1 : st.firstIsSubset = false := hb.2 true
      have b2 : st.secondIsSubset = false := hb.2 false
      unfold ShapedState.relation
      rw [b1, b2, hb.1]
      cases st.boundariesIntersect <;> rfl
    rw [e]
    exact ⟨cont hb.1, nsub true (hb.2 true), nsub false (hb.2 false)⟩
  have ncont : st.hasContinuousIntersection = false → ¬ ∃ z, ∀ b, Inn c b z := by
    intro k hz
    obtain ⟨i, hi, t, si, k', hk, ho⟩ := (inn_iff g hd).mp hz
    have := acc i hi t si k' hk
    rcases ho with rfl | rfl
    · rw [this.1] at k; cases k
    · have : st.hasContinuousIntersection = true := this
      rw [this] at k; cases k
  have sub : ∀ b, sSub st b = true → sSub s0 b = true ∧ ∀ z, Cl c b z → Cl c (!b) z := by
    intro b k
    constructor
    · by_contra q
      rw [h.le.sub b (bool_false q)] at k
      cases k
    · intro z hz
      by_contra q
      obtain ⟨i, hi, t, si, k', hk, ho⟩ := (out_iff g hd).mp ⟨z, hz, q⟩
      have := acc i hi t si k' hk
      rcases ho with ⟨e, rfl | rfl⟩ | ⟨e, rfl⟩
      · rw [e] at this
        have this : sSub st b = false := this
        rw [this] at k; cases k
      · rw [e] at this
        have this : sSub st b = false := this
        rw [this] at k; cases k
      · rw [e] at this
        have this : sSub st (!!b) = false := this.2.2
        rw [Bool.not_not, k] at this; cases this
  have bdin : ∀ b z, InOp c b z → Inn c (!b) z → sBd st b = true ∧ sSub st (!b) = false ∧
      st.hasContinuousIntersection = true := by
    intro b z h1 h2
    obtain ⟨i, hi, e, t, si, hk⟩ := (bd_inn_iff (inte := inte) g).mp ⟨z, h1, h2⟩
    have := acc i hi t si _ hk
    rw [e] at this
    exact ⟨this.2.1, this.2.2, this.1⟩
  have bd : ∀ b, sBd st b = true → ∃ z, InOp c b z ∧ Inn c (!b) z := by
    intro b k
    exact (bd_inn_iff (inte := inte) g).mpr (h.snd.bd b k)
  have nmeet : st.boundariesIntersect = false → ¬ Meet c := by
    intro k hm
    obtain ⟨z, hz, hb⟩ := meet_mem g hm
    rw [hbi z hz hb] at k; cases k
  -- without common points of the boundaries
  have far : ∀ b, st.boundariesIntersect = false → sSub st b = true → sSub st (!b) = false ∧ ∀ z, Cl c b z → Inn c (!b) z := by
    intro b hbi hs
    have key : ∀ z, InOp c (!b) z → ¬ Cl c b z := by
      rintro z h1 (h2 | h2)
      · refine nmeet hbi ⟨z, fun b' => ?_⟩
        by_cases w : b' = b
        · rw [w]; exact h2
        · rw [Bool.eq_not_of_ne w]; exact h1
      · have := bdin (!b) z h1 (by rw [Bool.not_not]; exact h2)
        rw [Bool.not_not, hs] at this
        cases this.2.1
    constructor
    · refine bool_false fun k => ?_
      obtain ⟨z, hz⟩ := hne (!b)
      have := (sub (!b) k).2 z (Or.inl hz)
      rw [Bool.not_not] at this
      exact key z hz this
    · intro z hz
      rcases (sub b hs).2 z hz with k | k
      · exact absurd hz (key z k)
      · exact k
  have inc : ∀ b, sSub st b = true → sBd st b = false → ∀ z, InOp c b z → InOp c (!b) z := by
    intro b hs hf z hz
    rcases (sub b hs).2 z (Or.inl hz) with k | k
    · exact k
    · rw [(bdin b z hz k).1] at hf; cases hf
  unfold ShapedState.relation
  have s1 : sSub st true = st.firstIsSubset := rfl
  have s2 : sSub st false = st.secondIsSubset := rfl
  have f1 : sBd st true = st.firstBoundaryIntersectsSecondInterior := rfl
  have f2 : sBd st false = st.secondBoundaryIntersectsFirstInterior := rfl
  rw [← s1, ← s2, ← f1, ← f2]
  cases hB : st.boundariesIntersect with
  | true =>
    have hM := h.snd.bi hB
    simp only [if_true]
    cases h1 : sSub st true with
    | true =>
      simp only [if_true]
      cases h2 : sSub st false with
      | true => exact ⟨sub _ h1, sub _ h2⟩
      | false =>
        simp only [Bool.false_eq_true, if_false]
        cases hf : sBd st true with
        | true => exact ⟨sub _ h1, nsub _ h2, hM, bd true hf⟩
        | false => exact ⟨sub _ h1, nsub _ h2, inc true h1 hf⟩
    | false =>
      simp only [Bool.false_eq_true, if_false]
      cases h2 : sSub st false with
      | true =>
        simp only [if_true]
        cases hf : sBd st false with
        | true => exact ⟨sub _ h2, nsub _ h1, hM, bd false hf⟩
        | false => exact ⟨sub _ h2, nsub _ h1, inc false h2 hf⟩
      | false =>
        simp only [Bool.false_eq_true, if_false]
        cases hc : st.hasContinuousIntersection with
        | true => exact ⟨cont hc, nsub _ h1, nsub _ h2⟩
        | false => exact ⟨hM, ncont hc, nsub _ h1, nsub _ h2⟩
  | false =>
    simp only [Bool.false_eq_true, if_false]
    cases h2 : sSub st false with
    | true =>
      obtain ⟨k1, k2⟩ := far false hB h2
      exact ⟨sub _ h2, nsub _ k1, k2⟩
    | false =>
      simp only [Bool.false_eq_true, if_false]
      cases h1 : sSub st true with
      | true =>
        obtain ⟨k1, k2⟩ := far true hB h1
        exact ⟨sub _ h1, nsub _ k1, k2⟩
      | false =>
        simp only [Bool.false_eq_true, if_false]
        cases hc : st.hasContinuousIntersection with
        | true => exact ⟨cont hc, nsub _ h1, nsub _ h2⟩
        | false =>
          simp only [Bool.false_eq_true, if_false]
          rintro z ⟨k1 | k1, k2 | k2⟩
          · exact nmeet hB ⟨z, fun b => by cases b; exact k2; exact k1⟩
          · rw [(bdin true z k1 k2).2.2] at hc; cases hc
          · rw [(bdin false z k2 k1).2.2] at hc; cases hc
          · exact ncont hc ⟨z, fun b => by cases b; exact k2; exact k1⟩

end Rene.Sweep
