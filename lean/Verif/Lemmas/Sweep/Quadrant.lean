import Verif.Lemmas.Sweep.ContourParity
import Verif.Props.Regions

/-! Parities along the ray to the right and along the (sheared) ray down are the same. -/

namespace Rene.Sweep
open Rene Spec

/-- The quadrant to the right of and below `p`. -/
def quadrant (ε : ℚ) (p v : Point) : Bool := decide (v.y ≤ p.y ∧ Xe ε p < Xe ε v)

theorem quadrant_iff {ε : ℚ} {p v : Point} : quadrant ε p v = true ↔ v.y ≤ p.y ∧ Xe ε p < Xe ε v := by
  unfold quadrant; rw [decide_eq_true_eq]

/-- `cr` in sheared coordinates. -/
theorem cr_shear (ε : ℚ) (a b p : Point) : cr a b p =
    (Xe ε a - Xe ε p) * (b.y - p.y) - (Xe ε b - Xe ε p) * (a.y - p.y) := by
  unfold cr Xe; ring

theorem mem_seg_of_Xe {ε : ℚ} {a b p : Point} (h : Xe ε a < Xe ε b) (hc : cr a b p = 0) (h1 : Xe ε a ≤ Xe ε p)
    (h2 : Xe ε p ≤ Xe ε b) : p ∈ seg a b := by
  obtain ⟨t, t0, t1, e⟩ := mem_seg_of_y (p := phi ε a) (q := phi ε b) (x := phi ε p) h (by rw [cr_phi]; exact hc) h1 h2
  rw [phi_lerp] at e
  exact ⟨t, t0, t1, phi_inj e⟩

theorem quad_aux {ua wa ub wb : ℚ} (h1 : ua * wb - ub * wa = 0 → ¬ (ua ≤ 0 ∧ 0 < ub))
    (h2 : ua * wb - ub * wa = 0 → ¬ (ub ≤ 0 ∧ 0 < ua)) (h3 : ua * wb - ub * wa = 0 → ¬ (wa ≤ 0 ∧ 0 < wb))
    (h4 : ua * wb - ub * wa = 0 → ¬ (wb ≤ 0 ∧ 0 < wa)) :
    (decide ((wa ≤ 0 ∧ 0 < wb ∧ 0 < ua * wb - ub * wa) ∨ (wb ≤ 0 ∧ 0 < wa ∧ ua * wb - ub * wa ≤ 0)) ^^
      decide ((ua ≤ 0 ∧ 0 < ub ∧ 0 < ua * wb - ub * wa) ∨ (ub ≤ 0 ∧ 0 < ua ∧ ua * wb - ub * wa < 0))) =
    (decide (wa ≤ 0 ∧ 0 < ua) ^^ decide (wb ≤ 0 ∧ 0 < ub)) := by
  have cs : ∀ x : ℚ, (x ≤ 0 ∧ ¬ 0 < x) ∨ (¬ x ≤ 0 ∧ 0 < x) := fun x => by
    rcases le_or_gt x 0 with h | h
    · exact Or.inl ⟨h, not_lt.mpr h⟩
    · exact Or.inr ⟨not_le.mpr h, h⟩
  rcases cs ua with ⟨a1, b1⟩ | ⟨b1, a1⟩ <;> rcases cs ub with ⟨a2, b2⟩ | ⟨b2, a2⟩ <;>
    rcases cs wa with ⟨a3, b3⟩ | ⟨b3, a3⟩ <;> rcases cs wb with ⟨a4, b4⟩ | ⟨b4, a4⟩ <;>
    simp only [a1, a2, a3, a4, b1, b2, b3, b4, true_and,
      false_and, and_true, and_false, or_false, false_or, decide_false, decide_true, Bool.xor_false, Bool.false_xor,
      Bool.xor_self, not_true_eq_false, not_false_eq_true, imp_false, imp_true_iff] at h1 h2 h3 h4 ⊢
  all_goals first
    | exact decide_eq_false (not_lt.mpr (by nlinarith))
    | exact decide_eq_false (not_le.mpr (by
        rcases lt_trichotomy (ua * wb - ub * wa) 0 with d | d | d <;>
          first | exact d | exact absurd d (by assumption) | nlinarith))
    | exact decide_eq_true (by
        rcases lt_trichotomy (ua * wb - ub * wa) 0 with d | d | d <;>
          first | exact d | exact d.le | exact absurd d (by assumption) | nlinarith)
    | (rcases lt_trichotomy (ua * wb - ub * wa) 0 with d | d | d <;>
        first | exact absurd d (by assumption) | (simp [d, d.le, not_lt.mpr d.le]; done) | (simp [d, not_le.mpr d, not_lt.mpr d.le]; try linarith))

/-- An edge not passing through the point. -/
theorem crosses_below {ε : ℚ} {s : Segment} {p : Point} (hs : Xe ε (lo s) < Xe ε (hi s)) (h : p ∉ segPts s) :
    (crossesRay s.start s.end p ^^ below ε s p) = (quadrant ε p s.start ^^ quadrant ε p s.end) := by
  have hb : below ε s p = true ↔ (Xe ε s.start - Xe ε p ≤ 0 ∧ 0 < Xe ε s.end - Xe ε p ∧ 0 < cr s.start s.end p) ∨
      (Xe ε s.end - Xe ε p ≤ 0 ∧ 0 < Xe ε s.start - Xe ε p ∧ cr s.start s.end p < 0) := by
    rw [below_iff]
    rcases lo_hi_or s with ⟨e1, e2⟩ | ⟨e1, e2⟩ <;> rw [e1, e2] at hs ⊢
    · constructor
      · rintro ⟨k1, k2, k3⟩; exact Or.inl ⟨by linarith, by linarith, k3⟩
      · rintro (⟨k1, k2, k3⟩ | ⟨k1, k2, k3⟩)
        · exact ⟨by linarith, by linarith, k3⟩
        · linarith
    · rw [cr_swap12 s.end s.start]
      constructor
      · rintro ⟨k1, k2, k3⟩; exact Or.inr ⟨by linarith, by linarith, by linarith⟩
      · rintro (⟨k1, k2, k3⟩ | ⟨k1, k2, k3⟩)
        · linarith
        · exact ⟨by linarith, by linarith, by linarith⟩
  have hc : crossesRay s.start s.end p = true ↔
      (s.start.y - p.y ≤ 0 ∧ 0 < s.end.y - p.y ∧ 0 < cr s.start s.end p) ∨
      (s.end.y - p.y ≤ 0 ∧ 0 < s.start.y - p.y ∧ cr s.start s.end p ≤ 0) := by
    rw [crossesRay_iff]
    simp only [sub_nonpos, sub_pos]
  have q : ∀ v, quadrant ε p v = decide (v.y - p.y ≤ 0 ∧ 0 < Xe ε v - Xe ε p) := fun v =>
    bool_eq_of_iff (by rw [quadrant_iff, decide_eq_true_eq, sub_nonpos, sub_pos])
  have e1 := bool_eq_of_iff (hb.trans decide_eq_true_iff.symm)
  have e2 := bool_eq_of_iff (hc.trans decide_eq_true_iff.symm)
  rw [e1, e2, q, q, cr_shear ε]
  have h' : p ∉ seg s.end s.start := by rw [seg_comm]; exact h
  refine quad_aux ?_ ?_ ?_ ?_ <;> rw [← cr_shear ε] <;> rintro hz ⟨k1, k2⟩
  · exact h (mem_seg_of_Xe (by linarith) hz (by linarith) (by linarith))
  · exact h' (mem_seg_of_Xe (ε := ε) (by linarith) (by rw [cr_swap12, hz, neg_zero]) (by linarith) (by linarith))
  · exact h (mem_seg_of_y (by linarith) hz (by linarith) (by linarith))
  · exact h' (mem_seg_of_y (by linarith) (by rw [cr_swap12, hz, neg_zero]) (by linarith) (by linarith))

theorem rayParity_eq (p : Point) (l : List Segment) : rayParity p l = xorSum (fun s => crossesRay s.start s.end p) l := by
  induction l with
  | nil => rfl
  | cons s l ih => rw [rayParity, xorSum, ih]

theorem xor_comm4 {g h : Segment → Bool} {l : List Segment} :
    (xorSum g l ^^ xorSum h l) = xorSum (fun s => g s ^^ h s) l := (xorSum_xor g h l).symm

/-- Off a contour both parities are the same. -/
theorem rayParity_downParity {ε : ℚ} {vs : List Point} {p : Point}
    (hs : ∀ s ∈ toContourSegments vs, Xe ε (lo s) < Xe ε (hi s)) (hp : p ∉ segsPts (toContourSegments vs)) :
    rayParity p (toContourSegments vs) = downParity ε p (toContourSegments vs) := by
  refine eq_of_xor_false ?_
  rw [rayParity_eq, downParity, xor_comm4, ← contour_xor (quadrant ε p) vs]
  exact xorSum_congr fun s hs' => crosses_below (hs s hs') fun k => hp ⟨s, hs', k⟩

/-- Off a contour the parity tells the points inside. -/
theorem downParity_locate {ε : ℚ} {c : Contour} {p : Point}
    (hs : ∀ s ∈ c.segments, Xe ε (lo s) < Xe ε (hi s)) (hp : p ∉ contourPts c) :
    downParity ε p c.segments = decide (locatePointInRegion c p = .interior) := by
  rw [locatePointInRegion_of_not_mem hp]
  unfold Contour.segments at *
  rw [rayParity_downParity hs hp]
  cases downParity ε p (toContourSegments c.vertices) <;> rfl

end Rene.Sweep
