import Verif.Lemmas.Sweep.MixLoop
import Verif.Model.Shaped

/-! The shaped engine runs the mixed one: the events, the sweep line and the flags which they share. -/

namespace Rene.Sweep
open Rene Spec

/-- The state of the shaped engine and one of the mixed engine share what both have. -/
structure Rel (S : Shp) (M : Mix) : Prop where
  lin : S.lin = M.lin
  interior : S.interior = M.interior
  other : S.other = M.other
  kinds : S.kinds.map (fun k => decide (k ≠ OverlapKind.none)) = M.overlap

theorem Rel.divide {S : Shp} {M : Mix} (h : Rel S M) (e : ℕ) (m : Point) :
    Rel (S.divideByMidpoint e m) (M.divideByMidpoint e m) := by
  obtain ⟨h1, h2, h3, h4⟩ := h
  refine ⟨?_, h2, ?_, ?_⟩
  · show S.lin.divideByMidpoint e m = M.lin.divideByMidpoint e m
    rw [h1]
  · show S.other ++ [false] = M.other ++ [false]
    rw [h3]
  · show (S.kinds ++ [OverlapKind.none]).map _ = M.overlap ++ [false]
    rw [List.map_append, h4]; rfl

theorem Rel.mark {S : Shp} {M : Mix} (h : Rel S M) (b e : ℕ) : Rel (S.markOverlap b e) (M.markOverlap b e) := by
  obtain ⟨h1, h2, h3, h4⟩ := h
  refine ⟨h1, h2, h3, ?_⟩
  unfold Shp.markOverlap Mix.markOverlap
  simp only
  rw [List.map_set, List.map_set, h4]
  split <;> rfl

/-- Results of the intersection tests correspond. -/
def Rel2 (r : Shp × Bool) (r' : Mix × Bool) : Prop := Rel r.1 r'.1 ∧ r.2 = r'.2

theorem rel2_ite {c c' : Prop} [Decidable c] [Decidable c'] {r s : Shp × Bool} {r' s' : Mix × Bool} (hc : c ↔ c')
    (h : c → Rel2 r r') (h' : ¬ c → Rel2 s s') : Rel2 (if c then r else s) (if c' then r' else s') := by
  by_cases k : c
  · rw [if_pos k, if_pos (hc.mp k)]; exact h k
  · rw [if_neg k, if_neg (fun z => k (hc.mpr z))]; exact h' k

theorem orient_swap (a b p : Point) : orient b a p = (match orient a b p with
    | .clockwise => .counterclockwise | .collinear => .collinear | .counterclockwise => .clockwise) := by
  have hc : cr b a p = - cr a b p := by unfold cr; ring
  rcases lt_trichotomy (cr a b p) 0 with h | h | h
  · rw [orient_cw.mpr h, orient_ccw.mpr (by rw [hc]; linarith)]
  · rw [orient_collinear.mpr h, orient_collinear.mpr (by rw [hc, h, neg_zero])]
  · rw [orient_ccw.mpr h, orient_cw.mpr (by rw [hc]; linarith)]

theorem Rel.detect {S : Shp} {M : Mix} (h : Rel S M) (b e : ℕ) : Rel2 (S.detect b e) (M.detect b e) := by
  have hl := h.lin
  unfold Shp.detect Mix.detect
  simp only [hl]
  have o1 := orient_swap (M.lin.start b) (M.lin.end b) (M.lin.start e)
  have o2 := orient_swap (M.lin.start b) (M.lin.end b) (M.lin.end e)
  have c1 : orient (M.lin.start b) (M.lin.end b) (M.lin.start e) = orient (M.lin.start b) (M.lin.end b) (M.lin.end e)
      ↔ orient (M.lin.end b) (M.lin.start b) (M.lin.start e) = orient (M.lin.end b) (M.lin.start b) (M.lin.end e) := by
    rw [o1, o2]
    cases orient (M.lin.start b) (M.lin.end b) (M.lin.start e) <;>
      cases orient (M.lin.start b) (M.lin.end b) (M.lin.end e) <;> simp
  have c2 : orient (M.lin.start b) (M.lin.end b) (M.lin.start e) = .collinear ↔
      orient (M.lin.end b) (M.lin.start b) (M.lin.start e) = .collinear := by
    rw [o1]
    cases orient (M.lin.start b) (M.lin.end b) (M.lin.start e) <;> simp
  have c3 : orient (M.lin.start b) (M.lin.end b) (M.lin.end e) = .collinear ↔
      orient (M.lin.end b) (M.lin.start b) (M.lin.end e) = .collinear := by
    rw [o2]
    cases orient (M.lin.start b) (M.lin.end b) (M.lin.end e) <;> simp
  have z0 : Rel2 (S, false) (M, false) := ⟨h, rfl⟩
  have z1 : ∀ x m, Rel2 (S.divideByMidpoint x m, false) (M.divideByMidpoint x m, false) :=
    fun x m => ⟨h.divide x m, rfl⟩
  have z2 : ∀ x m x' m', Rel2 ((S.divideByMidpoint x m).divideByMidpoint x' m', false)
      ((M.divideByMidpoint x m).divideByMidpoint x' m', false) := fun x m x' m' => ⟨(h.divide x m).divide x' m', rfl⟩
  refine rel2_ite c1 (fun _ => rel2_ite c2 (fun _ => rel2_ite Iff.rfl (fun _ => ⟨?_, rfl⟩) (fun _ => ?_))
    (fun _ => z0)) (fun _ => ?_)
  · refine Rel.mark ?_ b e
    by_cases h4 : M.lin.end e ≠ M.lin.end b
    · rw [if_pos h4, if_pos h4]
      by_cases h5 : (M.lin.end e).ltB (M.lin.end b) = true
      · rw [if_pos h5, if_pos h5]; exact h.divide _ _
      · rw [if_neg h5, if_neg h5]; exact h.divide _ _
    · rw [if_neg h4, if_neg h4]; exact h
  · refine rel2_ite Iff.rfl (fun _ => rel2_ite Iff.rfl (fun _ => z1 _ _) (fun _ => z1 _ _)) (fun _ => ?_)
    refine rel2_ite Iff.rfl (fun _ => rel2_ite Iff.rfl (fun _ => z2 _ _ _ _) (fun _ => z2 _ _ _ _)) (fun _ => ?_)
    exact rel2_ite Iff.rfl (fun _ => rel2_ite Iff.rfl (fun _ => z2 _ _ _ _) (fun _ => z2 _ _ _ _)) (fun _ => z0)
  · refine rel2_ite c2 (fun _ => rel2_ite Iff.rfl (fun _ => z1 _ _) (fun _ => z0)) (fun _ => ?_)
    refine rel2_ite c3 (fun _ => rel2_ite Iff.rfl (fun _ => z1 _ _) (fun _ => z0)) (fun _ => ?_)
    refine rel2_ite Iff.rfl (fun _ => rel2_ite Iff.rfl (fun _ => z1 _ _) (fun _ => z0)) (fun _ => ?_)
    refine rel2_ite Iff.rfl (fun _ => rel2_ite Iff.rfl (fun _ => z1 _ _) (fun _ => z0)) (fun _ => ?_)
    exact rel2_ite Iff.rfl (fun _ => z2 _ _ _ _) (fun _ => z0)

theorem Rel.detectIntersection {S : Shp} {M : Mix} (h : Rel S M) (b e : ℕ) :
    Rel2 (S.detectIntersection b e) (M.detectIntersection b e) := by
  obtain ⟨h1, h2⟩ := h.detect b e
  refine ⟨⟨?_, h1.interior, h1.other, h1.kinds⟩, h2⟩
  unfold Shp.detectIntersection Mix.detectIntersection
  simp only [h1.lin, h.lin]

theorem Rel.compute {S : Shp} {M : Mix} (h : Rel S M) (op : ShpOp) (mop : MixOp) (e : ℕ) (b? : Option ℕ) :
    Rel (S.computeFields op e b?) (M.computeFields mop e b?) := by
  obtain ⟨h1, h2, h3, h4⟩ := h
  cases b? with
  | none => exact ⟨h1, h2, h3, h4⟩
  | some b =>
    refine ⟨h1, h2, ?_, h4⟩
    show S.other.set _ _ = M.other.set _ _
    rw [h1, h2, h3]

theorem Rel.set_lin {S : Shp} {M : Mix} (h : Rel S M) (L : Lin) : Rel { S with lin := L } { M with lin := L } :=
  ⟨rfl, h.interior, h.other, h.kinds⟩

theorem Rel.checkAbove {S : Shp} {M : Mix} (h : Rel S M) (op : ShpOp) (mop : MixOp) (e : ℕ) (a? b? : Option ℕ) :
    Rel (S.checkAbove op e a? b?) (M.checkAbove mop e a? b?) := by
  cases a? with
  | none => exact h
  | some a =>
    obtain ⟨k1, k2⟩ := h.detectIntersection e a
    unfold Shp.checkAbove Mix.checkAbove
    simp only
    rw [k2]
    split
    · exact (k1.compute op mop e b?).compute op mop a (some e)
    · exact k1

theorem Rel.checkBelow {S : Shp} {M : Mix} (h : Rel S M) (op : ShpOp) (mop : MixOp) (e : ℕ) (b? : Option ℕ) :
    Rel (S.checkBelow op e b?) (M.checkBelow mop e b?) := by
  cases b? with
  | none => exact h
  | some b =>
    obtain ⟨k1, k2⟩ := h.detectIntersection b e
    unfold Shp.checkBelow Mix.checkBelow
    simp only
    rw [k2]
    split
    · rw [k1.lin]
      exact (k1.compute op mop b _).compute op mop e (some b)
    · exact k1

theorem Rel.number {S : Shp} {M : Mix} (h : Rel S M) (e : ℕ) : Rel (S.number e) M := by
  unfold Shp.number
  split <;> exact ⟨h.lin, h.interior, h.other, h.kinds⟩

theorem Rel.processRight {S : Shp} {M : Mix} (h : Rel S M) (e : ℕ) : Rel (S.processRight e) (M.processRight e) := by
  unfold Shp.processRight Mix.processRight
  simp only [h.lin]
  have h' := h.set_lin { M.lin with ok := M.lin.ok && isLeft (M.lin.opp e) }
  cases Lin.find { M.lin with ok := M.lin.ok && isLeft (M.lin.opp e) } (M.lin.opp e) with
  | none => exact h'
  | some o =>
    simp only
    have h'' := h'.set_lin (Lin.remove { M.lin with ok := M.lin.ok && isLeft (M.lin.opp e) } o)
    generalize Lin.below _ o = b?
    generalize Lin.above _ o = a?
    cases b? with
    | none => exact h''
    | some b =>
      cases a? with
      | none => exact h''
      | some a => exact (h''.detectIntersection b a).1

theorem Rel.processLeft {S : Shp} {M : Mix} (h : Rel S M) (op : ShpOp) (mop : MixOp) (e : ℕ) :
    Rel2 (S.processLeft op e) (M.processLeft mop e) := by
  unfold Shp.processLeft Mix.processLeft
  simp only [h.lin]
  cases M.lin.find e with
  | some o => exact ⟨h, rfl⟩
  | none =>
    simp only
    have h1 := (h.set_lin (M.lin.add e)).compute op mop e ((M.lin.add e).below e)
    rw [h1.lin]
    have e1 : (({ M with lin := M.lin.add e } : Mix).computeFields mop e ((M.lin.add e).below e)).lin =
        M.lin.add e := by
      cases (M.lin.add e).below e <;> rfl
    rw [e1]
    exact ⟨(h1.checkAbove op mop e _ _).checkBelow op mop e _, rfl⟩

theorem Rel.process {S : Shp} {M : Mix} (h : Rel S M) (op : ShpOp) (mop : MixOp) (e : ℕ) :
    Rel2 (S.process op e) (M.process mop e) := by
  have h1 := (h.set_lin { M.lin with queue := M.lin.queue.erase e, ok := M.lin.ok && M.lin.queueOk }).number e
  unfold Shp.process Mix.process
  simp only [h.lin]
  split
  · exact h1.processLeft op mop e
  · exact ⟨h1.processRight e, rfl⟩

end Rene.Sweep
