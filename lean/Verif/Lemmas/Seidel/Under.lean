import Verif.Lemmas.Seidel.Geo

namespace Rene.Seidel
open Rene Spec
variable {g : Geo}

theorem isUnder_iff (hg : g.Good) {d e : ℕ} (hd : d < g.n) (he : e < g.n) (hde : d ≠ e)
    (hs1 : g.xv (g.lft d) ≤ g.xv (g.lft e)) (hs2 : g.xv (g.lft e) < g.xv (g.rgt d)) {t : ℚ}
    (t1 : g.xv (g.lft e) < t) (t2 : t < g.xv (g.rgt e)) (t3 : t < g.xv (g.rgt d)) :
    (edgeAt g.edges d).isUnder (edgeAt g.edges e) g.endpoints = true ↔ g.f d t < g.f e t := by
  have cA := hg.ccw d hd (g.lft e) (hg.lft e he)
  have wA := hg.cw d hd (g.lft e) (hg.lft e he)
  have cB := hg.ccw d hd (g.rgt e) (hg.rgt e he)
  have wB := hg.cw d hd (g.rgt e) (hg.rgt e he)
  have cl := hg.ccw e he (g.lft d) (hg.lft d hd)
  have wl := hg.cw e he (g.lft d) (hg.lft d hd)
  have cr := hg.ccw e he (g.rgt d) (hg.rgt d hd)
  have wr := hg.cw e he (g.rgt d) (hg.rgt d hd)
  rw [hg.onL e he] at cA wA
  rw [hg.onR e he] at cB wB
  rw [hg.onL d hd] at cl wl
  rw [hg.onR d hd] at cr wr
  have hpe := hg.pos e he
  have hd2 : d < g.n + 2 := by omega
  have he2 : e < g.n + 2 := by omega
  -- a common interval
  set u := min (g.xv (g.rgt e)) (g.xv (g.rgt d)) with hu
  have tu : t < u := lt_min t2 t3
  have ue : u ≤ g.xv (g.rgt e) := min_le_left _ _
  have ud : u ≤ g.xv (g.rgt d) := min_le_right _ _
  have s1 : g.Sp e (g.xv (g.lft e)) := fun _ => ⟨le_rfl, hpe.le⟩
  have s2 : g.Sp e u := fun _ => ⟨by linarith, ue⟩
  have s3 : g.Sp d (g.xv (g.lft e)) := fun _ => ⟨hs1, hs2.le⟩
  have s4 : g.Sp d u := fun _ => ⟨by linarith, ud⟩
  have f1 : g.f d t ≠ g.f e t := hg.ne hd2 he2 hde s3 s4 s1 s2 t1 tu
  have f2 : g.f d (g.xv (g.lft e)) < g.f e (g.xv (g.lft e)) → g.f d t < g.f e t := fun h =>
    hg.ord hd2 he2 s3 s4 s1 s2 le_rfl (by linarith) h t1 tu
  have f3 : g.f e (g.xv (g.lft e)) < g.f d (g.xv (g.lft e)) → g.f e t < g.f d t := fun h =>
    hg.ord he2 hd2 s1 s2 s3 s4 le_rfl (by linarith) h t1 tu
  have f4 : g.f d t < g.f e t → g.f d u ≤ g.f e u := fun h =>
    hg.ord_le hd2 he2 s3 s4 s1 s2 t1 tu h (by linarith) le_rfl
  have f5 : g.f e t < g.f d t → g.f e u ≤ g.f d u := fun h =>
    hg.ord_le he2 hd2 s1 s2 s3 s4 t1 tu h (by linarith) le_rfl
  -- affine functions
  have aff : ∀ x y z : ℚ, (g.f e y - g.f d y) * (z - x) = (g.f e x - g.f d x) * (z - y) + (g.f e z - g.f d z) * (y - x) := by
    intro x y z; unfold Geo.f; ring
  have f6 : g.f d (g.xv (g.lft e)) = g.f e (g.xv (g.lft e)) → g.f d (g.xv (g.rgt e)) < g.f e (g.xv (g.rgt e)) →
      g.f d t < g.f e t := by
    intro h1 h2
    have := aff (g.xv (g.lft e)) t (g.xv (g.rgt e))
    rw [h1] at this
    have p : 0 < (g.f e (g.xv (g.rgt e)) - g.f d (g.xv (g.rgt e))) * (t - g.xv (g.lft e)) := mul_pos (by linarith) (by linarith)
    have q : 0 < (g.f e t - g.f d t) * (g.xv (g.rgt e) - g.xv (g.lft e)) := by linarith
    have := (pos_iff_pos_of_mul_pos q).mpr (by linarith : (0:ℚ) < g.xv (g.rgt e) - g.xv (g.lft e))
    linarith
  have f7 : g.f d (g.xv (g.lft e)) = g.f e (g.xv (g.lft e)) → g.f e (g.xv (g.rgt e)) < g.f d (g.xv (g.rgt e)) →
      g.f e t < g.f d t := by
    intro h1 h2
    have := aff (g.xv (g.lft e)) t (g.xv (g.rgt e))
    rw [h1] at this
    have p : 0 < (g.f d (g.xv (g.rgt e)) - g.f e (g.xv (g.rgt e))) * (t - g.xv (g.lft e)) := mul_pos (by linarith) (by linarith)
    have q : 0 < (g.f d t - g.f e t) * (g.xv (g.rgt e) - g.xv (g.lft e)) := by linarith
    have := (pos_iff_pos_of_mul_pos q).mpr (by linarith : (0:ℚ) < g.xv (g.rgt e) - g.xv (g.lft e))
    linarith
  have f8 : g.f d (g.xv (g.lft e)) = g.f e (g.xv (g.lft e)) → g.f e (g.xv (g.rgt e)) = g.f d (g.xv (g.rgt e)) → False := by
    intro h1 h2
    have := aff (g.xv (g.lft e)) t (g.xv (g.rgt e))
    rw [h1, h2] at this
    have q : (g.f e t - g.f d t) * (g.xv (g.rgt e) - g.xv (g.lft e)) = 0 := by linarith
    rcases mul_eq_zero.mp q with q | q
    · exact f1 (by linarith)
    · linarith
  have f9 : g.f d (g.xv (g.lft e)) < g.f e (g.xv (g.lft e)) → g.f e (g.xv (g.rgt e)) ≤ g.f d (g.xv (g.rgt e)) →
      g.f d (g.xv (g.lft d)) < g.f e (g.xv (g.lft d)) := by
    intro h1 h2
    have := aff (g.xv (g.lft d)) (g.xv (g.lft e)) (g.xv (g.rgt e))
    have p : 0 < (g.f e (g.xv (g.lft e)) - g.f d (g.xv (g.lft e))) * (g.xv (g.rgt e) - g.xv (g.lft d)) := mul_pos (by linarith) (by linarith)
    have q : (g.f e (g.xv (g.rgt e)) - g.f d (g.xv (g.rgt e))) * (g.xv (g.lft e) - g.xv (g.lft d)) ≤ 0 :=
      mul_nonpos_of_nonpos_of_nonneg (by linarith) (by linarith)
    have q : 0 < (g.f e (g.xv (g.lft d)) - g.f d (g.xv (g.lft d))) * (g.xv (g.rgt e) - g.xv (g.lft e)) := by linarith
    have := (pos_iff_pos_of_mul_pos q).mpr (by linarith : (0:ℚ) < g.xv (g.rgt e) - g.xv (g.lft e))
    linarith
  have f10 : g.f e (g.xv (g.lft e)) < g.f d (g.xv (g.lft e)) → g.f d (g.xv (g.rgt e)) ≤ g.f e (g.xv (g.rgt e)) →
      g.f e (g.xv (g.lft d)) < g.f d (g.xv (g.lft d)) := by
    intro h1 h2
    have := aff (g.xv (g.lft d)) (g.xv (g.lft e)) (g.xv (g.rgt e))
    have p : 0 < (g.f d (g.xv (g.lft e)) - g.f e (g.xv (g.lft e))) * (g.xv (g.rgt e) - g.xv (g.lft d)) := mul_pos (by linarith) (by linarith)
    have q : (g.f d (g.xv (g.rgt e)) - g.f e (g.xv (g.rgt e))) * (g.xv (g.lft e) - g.xv (g.lft d)) ≤ 0 :=
      mul_nonpos_of_nonpos_of_nonneg (by linarith) (by linarith)
    have q : 0 < (g.f d (g.xv (g.lft d)) - g.f e (g.xv (g.lft d))) * (g.xv (g.rgt e) - g.xv (g.lft e)) := by linarith
    have := (pos_iff_pos_of_mul_pos q).mpr (by linarith : (0:ℚ) < g.xv (g.rgt e) - g.xv (g.lft e))
    linarith
  have f11 : u = g.xv (g.rgt e) ∨ u = g.xv (g.rgt d) := min_choice _ _
  unfold Edge.isUnder
  simp only
  have eL : (edgeAt g.edges e).left = g.lft e := rfl
  have eR : (edgeAt g.edges e).right = g.rgt e := rfl
  have dL : (edgeAt g.edges d).left = g.lft d := rfl
  have dR : (edgeAt g.edges d).right = g.rgt d := rfl
  rw [eL, eR, dL, dR]
  generalize (edgeAt g.edges d).orientationOf (pt g.endpoints (g.lft e)) g.endpoints = oA at *
  generalize (edgeAt g.edges d).orientationOf (pt g.endpoints (g.rgt e)) g.endpoints = oB at *
  generalize (edgeAt g.edges e).orientationOf (pt g.endpoints (g.lft d)) g.endpoints = ol at *
  generalize (edgeAt g.edges e).orientationOf (pt g.endpoints (g.rgt d)) g.endpoints = or at *
  clear aff s1 s2 s3 s4 hs1 hs2
  clear_value u
  generalize g.f d t = dt at *
  generalize g.f e t = et at *
  generalize hq1 : g.f d (g.xv (g.lft e)) = q1 at *
  generalize hq2 : g.f e (g.xv (g.lft e)) = q2 at *
  generalize hq3 : g.f d (g.xv (g.rgt e)) = q3 at *
  generalize hq4 : g.f e (g.xv (g.rgt e)) = q4 at *
  generalize hq5 : g.f d (g.xv (g.lft d)) = q5 at *
  generalize hq6 : g.f e (g.xv (g.lft d)) = q6 at *
  generalize hq7 : g.f d (g.xv (g.rgt d)) = q7 at *
  generalize hq8 : g.f e (g.xv (g.rgt d)) = q8 at *
  have f12 : (g.f d u = q3 ∧ g.f e u = q4) ∨ (g.f d u = q7 ∧ g.f e u = q8) := by
    rcases f11 with h | h
    · left; rw [h]; exact ⟨hq3, hq4⟩
    · right; rw [h]; exact ⟨hq7, hq8⟩
  generalize g.f d u = du at *
  generalize g.f e u = eu at *
  clear hq1 hq2 hq3 hq4 hq5 hq6 hq7 hq8 eL eR dL dR f11 tu ue ud t1 t2 t3 hpe hd2 he2 hu
  cases oA <;> cases oB <;> simp only [reduceCtorEq, if_true, if_false, decide_true, decide_false, iff_true, iff_false, true_iff, false_iff] at * <;>
    first
    | grind
    | (cases ol <;> cases or <;> simp only [reduceCtorEq, if_true, if_false, decide_true, decide_false, iff_true, iff_false, true_iff, false_iff] at * <;> grind)

end Rene.Seidel
